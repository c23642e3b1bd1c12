import Verif.Proofs.ParserSafe
/-!
# One theorem for each rule of the notation

This file is made by tools/parser_gen.py from src/compiler/asn_compiler.yacc and src/compiler/autogen_copy/asn_compiler.hpp.

-/
namespace FastBer.Parser
open FastBer Lexer

/-- `w` is derived from `x` with value `v` and no effect. -/
def D (stod : Bytes → UInt64) (x : Nat) (w : List Tok) (v : Val) : Prop := ∀ st, Derives stod x w st v st

def DAll (stod : Bytes → UInt64) (γ : List Nat) (w : List Tok) (vs : List Val) : Prop := ∀ st, DerivesAll stod γ w st vs st

theorem DAll.nil {stod : Bytes → UInt64} : DAll stod [] [] [] := fun st => .nil st

theorem DAll.cons {stod : Bytes → UInt64} {x : Nat} {γ : List Nat} {w w' : List Tok} {v : Val} {vs : List Val} (h : D stod x w v)
    (h' : DAll stod γ w' vs) : DAll stod (x :: γ) (w ++ w') (v :: vs) := fun st => .cons (h st) (h' st)

theorem DAll.last {stod : Bytes → UInt64} {x : Nat} {w : List Tok} {v : Val} (h : D stod x w v) : DAll stod [x] w [v] := fun st => by
  have := DerivesAll.cons (h st) (.nil st)
  rwa [List.append_nil] at this

theorem DAll.tok {stod : Bytes → UInt64} {x : Nat} {γ : List Nat} {t : Tok} {w' : List Tok} {vs : List Val} (ht : terminal t = x)
    (h' : DAll stod γ w' vs) : DAll stod (x :: γ) (t :: w') (tokenValue t :: vs) := fun st => by
  have := DerivesAll.cons (.tok t st) (h' st)
  rwa [ht] at this

theorem D.of {stod : Bytes → UInt64} {i x r : Nat} {γ : List Nat} {w : List Tok} {vs : List Val} {v : Val} (hi : i ≠ 0)
    (hp : prod i = some (x, r, γ)) (h : DAll stod γ w vs) (hv : ∀ st, action stod r vs st = (v, st)) : D stod x w v :=
  fun st => .rule hi hp (h st) (hv st)

theorem tok29 : terminal (.sym "ABSENT") = 29 := by decide +kernel
theorem tok31 : terminal (.sym "ALL") = 31 := by decide +kernel
theorem tok32 : terminal (.sym "ANY") = 32 := by decide +kernel
theorem tok33 : terminal (.sym "APPLICATION") = 33 := by decide +kernel
theorem tok34 : terminal (.sym "NULL") = 34 := by decide +kernel
theorem tok35 : terminal (.sym "AUTOMATIC") = 35 := by decide +kernel
theorem tok36 : terminal (.sym "BEGIN") = 36 := by decide +kernel
theorem tok37 : terminal (.sym "BIT") = 37 := by decide +kernel
theorem tok38 : terminal (.sym "BMPString") = 38 := by decide +kernel
theorem tok39 : terminal (.sym "BOOLEAN") = 39 := by decide +kernel
theorem tok40 : terminal (.sym "BY") = 40 := by decide +kernel
theorem tok41 : terminal (.sym "CHARACTER") = 41 := by decide +kernel
theorem tok42 : terminal (.sym "CHOICE") = 42 := by decide +kernel
theorem tok43 : terminal (.sym "CLASS") = 43 := by decide +kernel
theorem tok44 : terminal (.sym "COMPONENT") = 44 := by decide +kernel
theorem tok45 : terminal (.sym "COMPONENTS") = 45 := by decide +kernel
theorem tok46 : terminal (.sym "CONSTRAINED") = 46 := by decide +kernel
theorem tok47 : terminal (.sym "CONTAINING") = 47 := by decide +kernel
theorem tok48 : terminal (.sym "DATE") = 48 := by decide +kernel
theorem tok49 : terminal (.sym "DATE-TIME") = 49 := by decide +kernel
theorem tok50 : terminal (.sym "DEFAULT") = 50 := by decide +kernel
theorem tok51 : terminal (.sym "DEFINITIONS") = 51 := by decide +kernel
theorem tok52 : terminal (.sym "DURATION") = 52 := by decide +kernel
theorem tok53 : terminal (.sym "EMBEDDED") = 53 := by decide +kernel
theorem tok56 : terminal (.sym "END") = 56 := by decide +kernel
theorem tok57 : terminal (.sym "ENUMERATED") = 57 := by decide +kernel
theorem tok58 : terminal (.sym "EXCEPT") = 58 := by decide +kernel
theorem tok59 : terminal (.sym "EXPLICIT") = 59 := by decide +kernel
theorem tok60 : terminal (.sym "EXPORTS") = 60 := by decide +kernel
theorem tok61 : terminal (.sym "EXTENSIBILITY") = 61 := by decide +kernel
theorem tok62 : terminal (.sym "EXTERNAL") = 62 := by decide +kernel
theorem tok63 : terminal (.sym "FALSE") = 63 := by decide +kernel
theorem tok64 : terminal (.sym "FROM") = 64 := by decide +kernel
theorem tok65 : terminal (.sym "GeneralizedTime") = 65 := by decide +kernel
theorem tok66 : terminal (.sym "GeneralString") = 66 := by decide +kernel
theorem tok67 : terminal (.sym "GraphicString") = 67 := by decide +kernel
theorem tok68 : terminal (.sym "IA5String") = 68 := by decide +kernel
theorem tok69 : terminal (.sym "IDENTIFIER") = 69 := by decide +kernel
theorem tok70 : terminal (.sym "IMPLICIT") = 70 := by decide +kernel
theorem tok71 : terminal (.sym "IMPLIED") = 71 := by decide +kernel
theorem tok72 : terminal (.sym "IMPORTS") = 72 := by decide +kernel
theorem tok76 : terminal (.sym "INTEGER") = 76 := by decide +kernel
theorem tok77 : terminal (.sym "INTERSECTION") = 77 := by decide +kernel
theorem tok78 : terminal (.sym "ISO646String") = 78 := by decide +kernel
theorem tok79 : terminal (.sym "MAX") = 79 := by decide +kernel
theorem tok80 : terminal (.sym "MIN") = 80 := by decide +kernel
theorem tok83 : terminal (.sym "NumericString") = 83 := by decide +kernel
theorem tok84 : terminal (.sym "OBJECT") = 84 := by decide +kernel
theorem tok85 : terminal (.sym "ObjectDescriptor") = 85 := by decide +kernel
theorem tok86 : terminal (.sym "OCTET") = 86 := by decide +kernel
theorem tok87 : terminal (.sym "OF") = 87 := by decide +kernel
theorem tok89 : terminal (.sym "OPTIONAL") = 89 := by decide +kernel
theorem tok91 : terminal (.sym "PDV") = 91 := by decide +kernel
theorem tok93 : terminal (.sym "PRESENT") = 93 := by decide +kernel
theorem tok94 : terminal (.sym "PrintableString") = 94 := by decide +kernel
theorem tok95 : terminal (.sym "PRIVATE") = 95 := by decide +kernel
theorem tok96 : terminal (.sym "REAL") = 96 := by decide +kernel
theorem tok97 : terminal (.sym "RELATIVE-OID") = 97 := by decide +kernel
theorem tok98 : terminal (.sym "RELATIVE-OID-IRI") = 98 := by decide +kernel
theorem tok99 : terminal (.sym "SEQUENCE") = 99 := by decide +kernel
theorem tok100 : terminal (.sym "SET") = 100 := by decide +kernel
theorem tok102 : terminal (.sym "SIZE") = 102 := by decide +kernel
theorem tok103 : terminal (.sym "STRING") = 103 := by decide +kernel
theorem tok104 : terminal (.sym "SYNTAX") = 104 := by decide +kernel
theorem tok105 : terminal (.sym "T61String") = 105 := by decide +kernel
theorem tok106 : terminal (.sym "TAGS") = 106 := by decide +kernel
theorem tok107 : terminal (.sym "TeletexString") = 107 := by decide +kernel
theorem tok108 : terminal (.sym "TIME") = 108 := by decide +kernel
theorem tok109 : terminal (.sym "TIME-OF-DAY") = 109 := by decide +kernel
theorem tok110 : terminal (.sym "TRUE") = 110 := by decide +kernel
theorem tok112 : terminal (.sym "UNION") = 112 := by decide +kernel
theorem tok113 : terminal (.sym "UNIQUE") = 113 := by decide +kernel
theorem tok114 : terminal (.sym "UNIVERSAL") = 114 := by decide +kernel
theorem tok115 : terminal (.sym "UniversalString") = 115 := by decide +kernel
theorem tok116 : terminal (.sym "UTCTime") = 116 := by decide +kernel
theorem tok117 : terminal (.sym "UTF8String") = 117 := by decide +kernel
theorem tok118 : terminal (.sym "VideotexString") = 118 := by decide +kernel
theorem tok119 : terminal (.sym "VisibleString") = 119 := by decide +kernel
theorem tok120 : terminal (.sym "WITH") = 120 := by decide +kernel
theorem tok121 : terminal (.sym "::=") = 121 := by decide +kernel
theorem tok122 : terminal (.sym "...") = 122 := by decide +kernel
theorem tok123 : terminal (.sym "..") = 123 := by decide +kernel
theorem tok124 : terminal (.sym "{") = 124 := by decide +kernel
theorem tok125 : terminal (.sym "}") = 125 := by decide +kernel
theorem tok126 : terminal (.sym "(") = 126 := by decide +kernel
theorem tok127 : terminal (.sym ")") = 127 := by decide +kernel
theorem tok128 : terminal (.sym "[") = 128 := by decide +kernel
theorem tok129 : terminal (.sym "]") = 129 := by decide +kernel
theorem tok130 : terminal (.sym "<") = 130 := by decide +kernel
theorem tok137 : terminal (.sym ",") = 137 := by decide +kernel
theorem tok138 : terminal (.sym ".") = 138 := by decide +kernel
theorem tok142 : terminal (.sym ";") = 142 := by decide +kernel
theorem tok144 : terminal (.sym "@") = 144 := by decide +kernel
theorem tok145 : terminal (.sym "|") = 145 := by decide +kernel
theorem tok146 : terminal (.sym "^") = 146 := by decide +kernel

theorem by_ModuleIdentifier_1 {stod : Bytes → UInt64} {w1 : List Tok} {v1 : Val} (h1 : D stod Sym.modulereference w1 v1) {w2 : List Tok} {v2 : Val} (h2 : D stod Sym.DefinitiveIdentification w2 v2) :
    D stod Sym.ModuleIdentifier (w1 ++ w2) (.str v1.asStr) :=
  D.of (i := 4) (by decide) rfl (.cons h1 (.last h2)) (fun _ => rfl)
theorem by_DefinitiveIdentification_1 {stod : Bytes → UInt64} :
    D stod Sym.DefinitiveIdentification [] (.none) :=
  D.of (i := 5) (by decide) rfl .nil (fun _ => rfl)
theorem by_DefinitiveIdentification_2 {stod : Bytes → UInt64} {w1 : List Tok} {v1 : Val} (h1 : D stod Sym.DefinitiveOID w1 v1) :
    D stod Sym.DefinitiveIdentification w1 (.none) :=
  D.of (i := 6) (by decide) rfl (.last h1) (fun _ => rfl)
theorem by_DefinitiveOID_1 {stod : Bytes → UInt64} {w2 : List Tok} {v2 : Val} (h2 : D stod Sym.DefinitiveObjIdComponentList w2 v2) :
    D stod Sym.DefinitiveOID (.sym "{" :: (w2 ++ [.sym "}"])) (.none) :=
  D.of (i := 7) (by decide) rfl (.tok tok124 (.cons h2 (.tok tok125 .nil))) (fun _ => rfl)
theorem by_DefinitiveObjIdComponentList_1 {stod : Bytes → UInt64} {w1 : List Tok} {v1 : Val} (h1 : D stod Sym.DefinitiveObjIdComponent w1 v1) :
    D stod Sym.DefinitiveObjIdComponentList w1 (.none) :=
  D.of (i := 8) (by decide) rfl (.last h1) (fun _ => rfl)
theorem by_DefinitiveObjIdComponentList_2 {stod : Bytes → UInt64} {w1 : List Tok} {v1 : Val} (h1 : D stod Sym.DefinitiveObjIdComponent w1 v1) {w2 : List Tok} {v2 : Val} (h2 : D stod Sym.DefinitiveObjIdComponentList w2 v2) :
    D stod Sym.DefinitiveObjIdComponentList (w1 ++ w2) (.none) :=
  D.of (i := 9) (by decide) rfl (.cons h1 (.last h2)) (fun _ => rfl)
theorem by_DefinitiveObjIdComponent_1 {stod : Bytes → UInt64} {w1 : List Tok} {v1 : Val} (h1 : D stod Sym.NameForm w1 v1) :
    D stod Sym.DefinitiveObjIdComponent w1 (.none) :=
  D.of (i := 10) (by decide) rfl (.last h1) (fun _ => rfl)
theorem by_DefinitiveObjIdComponent_2 {stod : Bytes → UInt64} {w1 : List Tok} {v1 : Val} (h1 : D stod Sym.DefinitiveNumberForm w1 v1) :
    D stod Sym.DefinitiveObjIdComponent w1 (.none) :=
  D.of (i := 11) (by decide) rfl (.last h1) (fun _ => rfl)
theorem by_DefinitiveObjIdComponent_3 {stod : Bytes → UInt64} {w1 : List Tok} {v1 : Val} (h1 : D stod Sym.DefinitiveNameAndNumberForm w1 v1) :
    D stod Sym.DefinitiveObjIdComponent w1 (.none) :=
  D.of (i := 12) (by decide) rfl (.last h1) (fun _ => rfl)
theorem by_DefinitiveNumberForm_1 {stod : Bytes → UInt64} (a1 : Int) :
    D stod Sym.DefinitiveNumberForm [.number a1] (.none) :=
  D.of (i := 13) (by decide) rfl (.tok rfl .nil) (fun _ => rfl)
theorem by_DefinitiveNameAndNumberForm_1 {stod : Bytes → UInt64} {w1 : List Tok} {v1 : Val} (h1 : D stod Sym.identifier w1 v1) {w3 : List Tok} {v3 : Val} (h3 : D stod Sym.DefinitiveNumberForm w3 v3) :
    D stod Sym.DefinitiveNameAndNumberForm (w1 ++ (.sym "(" :: (w3 ++ [.sym ")"]))) (.none) :=
  D.of (i := 14) (by decide) rfl (.cons h1 (.tok tok126 (.cons h3 (.tok tok127 .nil)))) (fun _ => rfl)
theorem by_NameForm_1 {stod : Bytes → UInt64} {w1 : List Tok} {v1 : Val} (h1 : D stod Sym.identifier w1 v1) :
    D stod Sym.NameForm w1 (.oid (some v1.asStr) none) :=
  D.of (i := 15) (by decide) rfl (.last h1) (fun _ => rfl)
theorem by_EncodingReferenceDefault_1 {stod : Bytes → UInt64} :
    D stod Sym.EncodingReferenceDefault [] (.none) :=
  D.of (i := 16) (by decide) rfl .nil (fun _ => rfl)
theorem by_EncodingControlSections_1 {stod : Bytes → UInt64} :
    D stod Sym.EncodingControlSections [] (.none) :=
  D.of (i := 17) (by decide) rfl .nil (fun _ => rfl)
theorem by_TagDefault_1 {stod : Bytes → UInt64} :
    D stod Sym.TagDefault (.sym "EXPLICIT" :: [.sym "TAGS"]) (.mode .explicit_) :=
  D.of (i := 18) (by decide) rfl (.tok tok59 (.tok tok106 .nil)) (fun _ => rfl)
theorem by_TagDefault_2 {stod : Bytes → UInt64} :
    D stod Sym.TagDefault (.sym "IMPLICIT" :: [.sym "TAGS"]) (.mode .implicit) :=
  D.of (i := 19) (by decide) rfl (.tok tok70 (.tok tok106 .nil)) (fun _ => rfl)
theorem by_TagDefault_3 {stod : Bytes → UInt64} :
    D stod Sym.TagDefault (.sym "AUTOMATIC" :: [.sym "TAGS"]) (.mode .automatic) :=
  D.of (i := 20) (by decide) rfl (.tok tok35 (.tok tok106 .nil)) (fun _ => rfl)
theorem by_TagDefault_4 {stod : Bytes → UInt64} :
    D stod Sym.TagDefault [] (.mode .explicit_) :=
  D.of (i := 21) (by decide) rfl .nil (fun _ => rfl)
theorem by_ExtensionDefault_1 {stod : Bytes → UInt64} :
    D stod Sym.ExtensionDefault (.sym "EXTENSIBILITY" :: [.sym "IMPLIED"]) (.none) :=
  D.of (i := 22) (by decide) rfl (.tok tok61 (.tok tok71 .nil)) (fun _ => rfl)
theorem by_ExtensionDefault_2 {stod : Bytes → UInt64} :
    D stod Sym.ExtensionDefault [] (.none) :=
  D.of (i := 23) (by decide) rfl .nil (fun _ => rfl)
theorem by_ModuleBody_1 {stod : Bytes → UInt64} {w1 : List Tok} {v1 : Val} (h1 : D stod Sym.Exports w1 v1) {w2 : List Tok} {v2 : Val} (h2 : D stod Sym.Imports w2 v2) {w3 : List Tok} {v3 : Val} (h3 : D stod Sym.AssignmentList w3 v3) :
    D stod Sym.ModuleBody (w1 ++ (w2 ++ w3)) (.module_ v2.asImports v3.asAssignments) :=
  D.of (i := 24) (by decide) rfl (.cons h1 (.cons h2 (.last h3))) (fun _ => rfl)
theorem by_ModuleBody_2 {stod : Bytes → UInt64} :
    D stod Sym.ModuleBody [] (.module_ [] []) :=
  D.of (i := 25) (by decide) rfl .nil (fun _ => rfl)
theorem by_Exports_1 {stod : Bytes → UInt64} {w2 : List Tok} {v2 : Val} (h2 : D stod Sym.SymbolsExported w2 v2) :
    D stod Sym.Exports (.sym "EXPORTS" :: (w2 ++ [.sym ";"])) (.none) :=
  D.of (i := 26) (by decide) rfl (.tok tok60 (.cons h2 (.tok tok142 .nil))) (fun _ => rfl)
theorem by_Exports_2 {stod : Bytes → UInt64} :
    D stod Sym.Exports (.sym "EXPORTS" :: (.sym "ALL" :: [.sym ";"])) (.none) :=
  D.of (i := 27) (by decide) rfl (.tok tok60 (.tok tok31 (.tok tok142 .nil))) (fun _ => rfl)
theorem by_Exports_3 {stod : Bytes → UInt64} :
    D stod Sym.Exports [] (.none) :=
  D.of (i := 28) (by decide) rfl .nil (fun _ => rfl)
theorem by_SymbolsExported_1 {stod : Bytes → UInt64} {w1 : List Tok} {v1 : Val} (h1 : D stod Sym.SymbolList w1 v1) :
    D stod Sym.SymbolsExported w1 (.none) :=
  D.of (i := 29) (by decide) rfl (.last h1) (fun _ => rfl)
theorem by_SymbolsExported_2 {stod : Bytes → UInt64} :
    D stod Sym.SymbolsExported [] (.none) :=
  D.of (i := 30) (by decide) rfl .nil (fun _ => rfl)
theorem by_Imports_1 {stod : Bytes → UInt64} {w2 : List Tok} {v2 : Val} (h2 : D stod Sym.SymbolsImported w2 v2) :
    D stod Sym.Imports (.sym "IMPORTS" :: (w2 ++ [.sym ";"])) (.imports v2.asImports) :=
  D.of (i := 31) (by decide) rfl (.tok tok72 (.cons h2 (.tok tok142 .nil))) (fun _ => rfl)
theorem by_Imports_2 {stod : Bytes → UInt64} :
    D stod Sym.Imports [] (.imports []) :=
  D.of (i := 32) (by decide) rfl .nil (fun _ => rfl)
theorem by_SymbolsImported_1 {stod : Bytes → UInt64} {w1 : List Tok} {v1 : Val} (h1 : D stod Sym.SymbolsFromModuleList w1 v1) :
    D stod Sym.SymbolsImported w1 (.imports v1.asImports) :=
  D.of (i := 33) (by decide) rfl (.last h1) (fun _ => rfl)
theorem by_SymbolsImported_2 {stod : Bytes → UInt64} :
    D stod Sym.SymbolsImported [] (.imports []) :=
  D.of (i := 34) (by decide) rfl .nil (fun _ => rfl)
theorem by_SymbolsFromModuleList_1 {stod : Bytes → UInt64} {w1 : List Tok} {v1 : Val} (h1 : D stod Sym.SymbolsFromModule w1 v1) :
    D stod Sym.SymbolsFromModuleList w1 (.imports [v1.asImport]) :=
  D.of (i := 35) (by decide) rfl (.last h1) (fun _ => rfl)
theorem by_SymbolsFromModuleList_2 {stod : Bytes → UInt64} {w1 : List Tok} {v1 : Val} (h1 : D stod Sym.SymbolsFromModuleList w1 v1) {w2 : List Tok} {v2 : Val} (h2 : D stod Sym.SymbolsFromModule w2 v2) :
    D stod Sym.SymbolsFromModuleList (w1 ++ w2) (.imports (v1.asImports ++ [v2.asImport])) :=
  D.of (i := 36) (by decide) rfl (.cons h1 (.last h2)) (fun _ => rfl)
theorem by_SymbolsFromModule_1 {stod : Bytes → UInt64} {w1 : List Tok} {v1 : Val} (h1 : D stod Sym.SymbolList w1 v1) {w3 : List Tok} {v3 : Val} (h3 : D stod Sym.GlobalModuleReference w3 v3) :
    D stod Sym.SymbolsFromModule (w1 ++ (.sym "FROM" :: w3)) (.import_ (importOf v3.asStr v1.asStrs)) :=
  D.of (i := 37) (by decide) rfl (.cons h1 (.tok tok64 (.last h3))) (fun _ => rfl)
theorem by_GlobalModuleReference_1 {stod : Bytes → UInt64} {w1 : List Tok} {v1 : Val} (h1 : D stod Sym.modulereference w1 v1) :
    D stod Sym.GlobalModuleReference w1 (.str v1.asStr) :=
  D.of (i := 38) (by decide) rfl (.last h1) (fun _ => rfl)
theorem by_GlobalModuleReference_2 {stod : Bytes → UInt64} {w1 : List Tok} {v1 : Val} (h1 : D stod Sym.modulereference w1 v1) {w2 : List Tok} {v2 : Val} (h2 : D stod Sym.ObjectIdentifierValue w2 v2) :
    D stod Sym.GlobalModuleReference (w1 ++ w2) (.str v1.asStr) :=
  D.of (i := 39) (by decide) rfl (.cons h1 (.last h2)) (fun _ => rfl)
theorem by_ObjectIdentifierValue_1 {stod : Bytes → UInt64} {w2 : List Tok} {v2 : Val} (h2 : D stod Sym.ObjIdComponentsList w2 v2) :
    D stod Sym.ObjectIdentifierValue (.sym "{" :: (w2 ++ [.sym "}"])) (.oids v2.asOids.reverse) :=
  D.of (i := 40) (by decide) rfl (.tok tok124 (.cons h2 (.tok tok125 .nil))) (fun _ => rfl)
theorem by_ObjIdComponentsList_1 {stod : Bytes → UInt64} {w1 : List Tok} {v1 : Val} (h1 : D stod Sym.ObjIdComponents w1 v1) :
    D stod Sym.ObjIdComponentsList w1 (.oids [v1.asOid]) :=
  D.of (i := 41) (by decide) rfl (.last h1) (fun _ => rfl)
theorem by_ObjIdComponentsList_2 {stod : Bytes → UInt64} {w1 : List Tok} {v1 : Val} (h1 : D stod Sym.ObjIdComponents w1 v1) {w2 : List Tok} {v2 : Val} (h2 : D stod Sym.ObjIdComponentsList w2 v2) :
    D stod Sym.ObjIdComponentsList (w1 ++ w2) (.oids (v2.asOids ++ [v1.asOid])) :=
  D.of (i := 42) (by decide) rfl (.cons h1 (.last h2)) (fun _ => rfl)
theorem by_ObjIdComponents_1 {stod : Bytes → UInt64} {w1 : List Tok} {v1 : Val} (h1 : D stod Sym.NameForm w1 v1) :
    D stod Sym.ObjIdComponents w1 (let o := v1.asOid; .oid o.1 o.2) :=
  D.of (i := 43) (by decide) rfl (.last h1) (fun _ => rfl)
theorem by_ObjIdComponents_2 {stod : Bytes → UInt64} {w1 : List Tok} {v1 : Val} (h1 : D stod Sym.NumberForm w1 v1) :
    D stod Sym.ObjIdComponents w1 (let o := v1.asOid; .oid o.1 o.2) :=
  D.of (i := 44) (by decide) rfl (.last h1) (fun _ => rfl)
theorem by_ObjIdComponents_3 {stod : Bytes → UInt64} {w1 : List Tok} {v1 : Val} (h1 : D stod Sym.NameAndNumberForm w1 v1) :
    D stod Sym.ObjIdComponents w1 (let o := v1.asOid; .oid o.1 o.2) :=
  D.of (i := 45) (by decide) rfl (.last h1) (fun _ => rfl)
theorem by_NumberForm_1 {stod : Bytes → UInt64} (a1 : Int) :
    D stod Sym.NumberForm [.number a1] (.oid none (some (.int a1 : Val).asInt)) :=
  D.of (i := 46) (by decide) rfl (.tok rfl .nil) (fun _ => rfl)
theorem by_NameAndNumberForm_1 {stod : Bytes → UInt64} {w1 : List Tok} {v1 : Val} (h1 : D stod Sym.identifier w1 v1) {w3 : List Tok} {v3 : Val} (h3 : D stod Sym.NumberForm w3 v3) :
    D stod Sym.NameAndNumberForm (w1 ++ (.sym "(" :: (w3 ++ [.sym ")"]))) (.oid (some v1.asStr) v3.asOid.2) :=
  D.of (i := 47) (by decide) rfl (.cons h1 (.tok tok126 (.cons h3 (.tok tok127 .nil)))) (fun _ => rfl)
theorem by_SymbolList_1 {stod : Bytes → UInt64} {w1 : List Tok} {v1 : Val} (h1 : D stod Sym.Symbol w1 v1) :
    D stod Sym.SymbolList w1 (.strs [v1.asStr]) :=
  D.of (i := 48) (by decide) rfl (.last h1) (fun _ => rfl)
theorem by_SymbolList_2 {stod : Bytes → UInt64} {w1 : List Tok} {v1 : Val} (h1 : D stod Sym.SymbolList w1 v1) {w3 : List Tok} {v3 : Val} (h3 : D stod Sym.Symbol w3 v3) :
    D stod Sym.SymbolList (w1 ++ (.sym "," :: w3)) (.strs (v1.asStrs ++ [v3.asStr])) :=
  D.of (i := 49) (by decide) rfl (.cons h1 (.tok tok137 (.last h3))) (fun _ => rfl)
theorem by_Symbol_1 {stod : Bytes → UInt64} {w1 : List Tok} {v1 : Val} (h1 : D stod Sym.Reference w1 v1) :
    D stod Sym.Symbol w1 (.str v1.asStr) :=
  D.of (i := 50) (by decide) rfl (.last h1) (fun _ => rfl)
theorem by_Reference_1 {stod : Bytes → UInt64} {w1 : List Tok} {v1 : Val} (h1 : D stod Sym.typereference w1 v1) :
    D stod Sym.Reference w1 (.str v1.asStr) :=
  D.of (i := 51) (by decide) rfl (.last h1) (fun _ => rfl)
theorem by_Reference_2 {stod : Bytes → UInt64} {w1 : List Tok} {v1 : Val} (h1 : D stod Sym.typereference w1 v1) :
    D stod Sym.Reference (w1 ++ (.sym "{" :: [.sym "}"])) (.str v1.asStr) :=
  D.of (i := 52) (by decide) rfl (.cons h1 (.tok tok124 (.tok tok125 .nil))) (fun _ => rfl)
theorem by_Reference_3 {stod : Bytes → UInt64} {w1 : List Tok} {v1 : Val} (h1 : D stod Sym.valuereference w1 v1) :
    D stod Sym.Reference w1 (.str v1.asStr) :=
  D.of (i := 53) (by decide) rfl (.last h1) (fun _ => rfl)
theorem by_Reference_type_1 {stod : Bytes → UInt64} {w1 : List Tok} {v1 : Val} (h1 : D stod Sym.typereference w1 v1) :
    D stod Sym.Reference_type w1 (.str v1.asStr) :=
  D.of (i := 54) (by decide) rfl (.last h1) (fun _ => rfl)
theorem by_AssignmentList_1 {stod : Bytes → UInt64} {w1 : List Tok} {v1 : Val} (h1 : D stod Sym.Assignment w1 v1) :
    D stod Sym.AssignmentList w1 (.assignments [v1.asAssignment]) :=
  D.of (i := 55) (by decide) rfl (.last h1) (fun _ => rfl)
theorem by_AssignmentList_2 {stod : Bytes → UInt64} {w1 : List Tok} {v1 : Val} (h1 : D stod Sym.Assignment w1 v1) {w2 : List Tok} {v2 : Val} (h2 : D stod Sym.AssignmentList w2 v2) :
    D stod Sym.AssignmentList (w1 ++ w2) (.assignments (v2.asAssignments ++ [v1.asAssignment])) :=
  D.of (i := 56) (by decide) rfl (.cons h1 (.last h2)) (fun _ => rfl)
theorem by_Assignment_1 {stod : Bytes → UInt64} {w1 : List Tok} {v1 : Val} (h1 : D stod Sym.TypeAssignment w1 v1) :
    D stod Sym.Assignment w1 (.assignment v1.asAssignment) :=
  D.of (i := 57) (by decide) rfl (.last h1) (fun _ => rfl)
theorem by_Assignment_2 {stod : Bytes → UInt64} {w1 : List Tok} {v1 : Val} (h1 : D stod Sym.ValueAssignment w1 v1) :
    D stod Sym.Assignment w1 (.assignment v1.asAssignment) :=
  D.of (i := 58) (by decide) rfl (.last h1) (fun _ => rfl)
theorem by_Assignment_3 {stod : Bytes → UInt64} {w1 : List Tok} {v1 : Val} (h1 : D stod Sym.ObjectClassAssignment w1 v1) :
    D stod Sym.Assignment w1 (.assignment v1.asAssignment) :=
  D.of (i := 59) (by decide) rfl (.last h1) (fun _ => rfl)
theorem by_Assignment_4 {stod : Bytes → UInt64} {w1 : List Tok} {v1 : Val} (h1 : D stod Sym.ParameterizedAssignment w1 v1) :
    D stod Sym.Assignment w1 (.assignment v1.asAssignment) :=
  D.of (i := 60) (by decide) rfl (.last h1) (fun _ => rfl)
theorem by_TypeAssignment_1 {stod : Bytes → UInt64} {w1 : List Tok} {v1 : Val} (h1 : D stod Sym.typereference w1 v1) {w3 : List Tok} {v3 : Val} (h3 : D stod Sym.Type_ w3 v3) :
    D stod Sym.TypeAssignment (w1 ++ (.sym "::=" :: w3)) (.assignment { name := v1.asStr, body := .type v3.asType }) :=
  D.of (i := 61) (by decide) rfl (.cons h1 (.tok tok121 (.last h3))) (fun _ => rfl)
theorem by_ValueAssignment_1 {stod : Bytes → UInt64} {w1 : List Tok} {v1 : Val} (h1 : D stod Sym.valuereference w1 v1) {w2 : List Tok} {v2 : Val} (h2 : D stod Sym.Type_ w2 v2) {w4 : List Tok} {v4 : Val} (h4 : D stod Sym.Value w4 v4) :
    D stod Sym.ValueAssignment (w1 ++ (w2 ++ (.sym "::=" :: w4))) (.assignment { name := v1.asStr, body := .value v2.asType v4.asValue }) :=
  D.of (i := 62) (by decide) rfl (.cons h1 (.cons h2 (.tok tok121 (.last h4)))) (fun _ => rfl)
theorem by_ParameterizedAssignment_1 {stod : Bytes → UInt64} {w1 : List Tok} {v1 : Val} (h1 : D stod Sym.ParameterizedTypeAssignment w1 v1) :
    D stod Sym.ParameterizedAssignment w1 (.assignment v1.asAssignment) :=
  D.of (i := 63) (by decide) rfl (.last h1) (fun _ => rfl)
theorem by_ParameterizedTypeAssignment_1 {stod : Bytes → UInt64} {w1 : List Tok} {v1 : Val} (h1 : D stod Sym.typereference w1 v1) {w2 : List Tok} {v2 : Val} (h2 : D stod Sym.ParameterList w2 v2) {w4 : List Tok} {v4 : Val} (h4 : D stod Sym.Type_ w4 v4) :
    D stod Sym.ParameterizedTypeAssignment (w1 ++ (w2 ++ (.sym "::=" :: w4))) (.assignment { name := v1.asStr, body := .type v4.asType, params := v2.asParams }) :=
  D.of (i := 64) (by decide) rfl (.cons h1 (.cons h2 (.tok tok121 (.last h4)))) (fun _ => rfl)
theorem by_ParameterList_1 {stod : Bytes → UInt64} {w2 : List Tok} {v2 : Val} (h2 : D stod Sym.ParameterSeries w2 v2) :
    D stod Sym.ParameterList (.sym "{" :: (w2 ++ [.sym "}"])) (.params v2.asParams) :=
  D.of (i := 65) (by decide) rfl (.tok tok124 (.cons h2 (.tok tok125 .nil))) (fun _ => rfl)
theorem by_ParameterSeries_1 {stod : Bytes → UInt64} {w1 : List Tok} {v1 : Val} (h1 : D stod Sym.Parameter w1 v1) :
    D stod Sym.ParameterSeries w1 (.params [v1.asParam]) :=
  D.of (i := 66) (by decide) rfl (.last h1) (fun _ => rfl)
theorem by_ParameterSeries_2 {stod : Bytes → UInt64} {w1 : List Tok} {v1 : Val} (h1 : D stod Sym.ParameterSeries w1 v1) {w3 : List Tok} {v3 : Val} (h3 : D stod Sym.Parameter w3 v3) :
    D stod Sym.ParameterSeries (w1 ++ (.sym "," :: w3)) (.params (v1.asParams ++ [v3.asParam])) :=
  D.of (i := 67) (by decide) rfl (.cons h1 (.tok tok137 (.last h3))) (fun _ => rfl)
theorem by_Parameter_1 {stod : Bytes → UInt64} {w1 : List Tok} {v1 : Val} (h1 : D stod Sym.Reference_type w1 v1) :
    D stod Sym.Parameter w1 (.param ⟨none, v1.asStr⟩) :=
  D.of (i := 68) (by decide) rfl (.last h1) (fun _ => rfl)
theorem by_ObjectClassAssignment_1 {stod : Bytes → UInt64} {w1 : List Tok} {v1 : Val} (h1 : D stod Sym.typereference w1 v1) {w3 : List Tok} {v3 : Val} (h3 : D stod Sym.ObjectClass w3 v3) :
    D stod Sym.ObjectClassAssignment (w1 ++ (.sym "::=" :: w3)) (.assignment { name := v1.asStr, body := .objectClass v3.asFields }) :=
  D.of (i := 69) (by decide) rfl (.cons h1 (.tok tok121 (.last h3))) (fun _ => rfl)
theorem by_ObjectClass_1 {stod : Bytes → UInt64} {w1 : List Tok} {v1 : Val} (h1 : D stod Sym.ObjectClassDefn w1 v1) :
    D stod Sym.ObjectClass w1 (.fields v1.asFields) :=
  D.of (i := 70) (by decide) rfl (.last h1) (fun _ => rfl)
theorem by_ObjectClassDefn_1 {stod : Bytes → UInt64} {w3 : List Tok} {v3 : Val} (h3 : D stod Sym.FieldSpecList w3 v3) {w5 : List Tok} {v5 : Val} (h5 : D stod Sym.WithSyntaxSpec w5 v5) :
    D stod Sym.ObjectClassDefn (.sym "CLASS" :: (.sym "{" :: (w3 ++ (.sym "}" :: w5)))) (.fields v3.asFields) :=
  D.of (i := 71) (by decide) rfl (.tok tok43 (.tok tok124 (.cons h3 (.tok tok125 (.last h5))))) (fun _ => rfl)
theorem by_FieldSpecList_1 {stod : Bytes → UInt64} {w1 : List Tok} {v1 : Val} (h1 : D stod Sym.FieldSpec w1 v1) :
    D stod Sym.FieldSpecList w1 (.fields v1.asFields) :=
  D.of (i := 72) (by decide) rfl (.last h1) (fun _ => rfl)
theorem by_FieldSpecList_2 {stod : Bytes → UInt64} {w1 : List Tok} {v1 : Val} (h1 : D stod Sym.FieldSpecList w1 v1) {w3 : List Tok} {v3 : Val} (h3 : D stod Sym.FieldSpec w3 v3) :
    D stod Sym.FieldSpecList (w1 ++ (.sym "," :: w3)) (.fields (v1.asFields ++ v3.asFields)) :=
  D.of (i := 73) (by decide) rfl (.cons h1 (.tok tok137 (.last h3))) (fun _ => rfl)
theorem by_FieldSpec_1 {stod : Bytes → UInt64} {w1 : List Tok} {v1 : Val} (h1 : D stod Sym.TypeFieldSpec w1 v1) :
    D stod Sym.FieldSpec w1 (.fields v1.asFields) :=
  D.of (i := 74) (by decide) rfl (.last h1) (fun _ => rfl)
theorem by_FieldSpec_2 {stod : Bytes → UInt64} {w1 : List Tok} {v1 : Val} (h1 : D stod Sym.FixedTypeValueFieldSpec w1 v1) :
    D stod Sym.FieldSpec w1 (.fields v1.asFields) :=
  D.of (i := 75) (by decide) rfl (.last h1) (fun _ => rfl)
theorem by_TypeFieldSpec_1 {stod : Bytes → UInt64} {w1 : List Tok} {v1 : Val} (h1 : D stod Sym.OneOrManyTypeFieldReference w1 v1) {w2 : List Tok} {v2 : Val} (h2 : D stod Sym.TypeOptionalitySpec w2 v2) :
    D stod Sym.TypeFieldSpec (w1 ++ w2) (.fields (v1.asStrs.map fun n => ⟨n, none⟩)) :=
  D.of (i := 76) (by decide) rfl (.cons h1 (.last h2)) (fun _ => rfl)
theorem by_OneOrManyTypeFieldReference_1 {stod : Bytes → UInt64} (a1 : List Char) :
    D stod Sym.OneOrManyTypeFieldReference [.typeField a1] (.strs [(.str (String.ofList a1) : Val).asStr]) :=
  D.of (i := 77) (by decide) rfl (.tok rfl .nil) (fun _ => rfl)
theorem by_TypeOptionalitySpec_1 {stod : Bytes → UInt64} :
    D stod Sym.TypeOptionalitySpec [.sym "OPTIONAL"] (.none) :=
  D.of (i := 78) (by decide) rfl (.tok tok89 .nil) (fun _ => rfl)
theorem by_TypeOptionalitySpec_2 {stod : Bytes → UInt64} :
    D stod Sym.TypeOptionalitySpec [] (.none) :=
  D.of (i := 79) (by decide) rfl .nil (fun _ => rfl)
theorem by_FixedTypeValueFieldSpec_1 {stod : Bytes → UInt64} (a1 : List Char) {w2 : List Tok} {v2 : Val} (h2 : D stod Sym.Type_ w2 v2) {w3 : List Tok} {v3 : Val} (h3 : D stod Sym.OptionalUnique w3 v3) {w4 : List Tok} {v4 : Val} (h4 : D stod Sym.ValueOptionalitySpec w4 v4) :
    D stod Sym.FixedTypeValueFieldSpec (.valueField a1 :: (w2 ++ (w3 ++ w4))) (.fields [⟨(.str (String.ofList a1) : Val).asStr, some v2.asType⟩]) :=
  D.of (i := 80) (by decide) rfl (.tok rfl (.cons h2 (.cons h3 (.last h4)))) (fun _ => rfl)
theorem by_OptionalUnique_1 {stod : Bytes → UInt64} :
    D stod Sym.OptionalUnique [.sym "UNIQUE"] (.none) :=
  D.of (i := 81) (by decide) rfl (.tok tok113 .nil) (fun _ => rfl)
theorem by_OptionalUnique_2 {stod : Bytes → UInt64} :
    D stod Sym.OptionalUnique [.sym "OPTIONAL"] (.none) :=
  D.of (i := 82) (by decide) rfl (.tok tok89 .nil) (fun _ => rfl)
theorem by_OptionalUnique_3 {stod : Bytes → UInt64} :
    D stod Sym.OptionalUnique [] (.none) :=
  D.of (i := 83) (by decide) rfl .nil (fun _ => rfl)
theorem by_ValueOptionalitySpec_1 {stod : Bytes → UInt64} :
    D stod Sym.ValueOptionalitySpec [] (.none) :=
  D.of (i := 84) (by decide) rfl .nil (fun _ => rfl)
theorem by_WithSyntaxSpec_1 {stod : Bytes → UInt64} :
    D stod Sym.WithSyntaxSpec [] (.none) :=
  D.of (i := 85) (by decide) rfl .nil (fun _ => rfl)
theorem by_WithSyntaxSpec_2 {stod : Bytes → UInt64} {w3 : List Tok} {v3 : Val} (h3 : D stod Sym.SyntaxList w3 v3) :
    D stod Sym.WithSyntaxSpec (.sym "WITH" :: (.sym "SYNTAX" :: w3)) (.none) :=
  D.of (i := 86) (by decide) rfl (.tok tok120 (.tok tok104 (.last h3))) (fun _ => rfl)
theorem by_SyntaxList_1 {stod : Bytes → UInt64} {w2 : List Tok} {v2 : Val} (h2 : D stod Sym.TokenOrGroupSpecList w2 v2) :
    D stod Sym.SyntaxList (.sym "{" :: (w2 ++ [.sym "}"])) (.none) :=
  D.of (i := 87) (by decide) rfl (.tok tok124 (.cons h2 (.tok tok125 .nil))) (fun _ => rfl)
theorem by_TokenOrGroupSpecList_1 {stod : Bytes → UInt64} {w1 : List Tok} {v1 : Val} (h1 : D stod Sym.TokenOrGroupSpec w1 v1) :
    D stod Sym.TokenOrGroupSpecList w1 (.none) :=
  D.of (i := 88) (by decide) rfl (.last h1) (fun _ => rfl)
theorem by_TokenOrGroupSpecList_2 {stod : Bytes → UInt64} {w1 : List Tok} {v1 : Val} (h1 : D stod Sym.TokenOrGroupSpecList w1 v1) {w2 : List Tok} {v2 : Val} (h2 : D stod Sym.TokenOrGroupSpec w2 v2) :
    D stod Sym.TokenOrGroupSpecList (w1 ++ w2) (.none) :=
  D.of (i := 89) (by decide) rfl (.cons h1 (.last h2)) (fun _ => rfl)
theorem by_TokenOrGroupSpec_1 {stod : Bytes → UInt64} {w1 : List Tok} {v1 : Val} (h1 : D stod Sym.RequiredToken w1 v1) :
    D stod Sym.TokenOrGroupSpec w1 (.none) :=
  D.of (i := 90) (by decide) rfl (.last h1) (fun _ => rfl)
theorem by_RequiredToken_1 {stod : Bytes → UInt64} {w1 : List Tok} {v1 : Val} (h1 : D stod Sym.LiteralList w1 v1) {w2 : List Tok} {v2 : Val} (h2 : D stod Sym.FieldName w2 v2) :
    D stod Sym.RequiredToken (w1 ++ w2) (.none) :=
  D.of (i := 91) (by decide) rfl (.cons h1 (.last h2)) (fun _ => rfl)
theorem by_LiteralList_1 {stod : Bytes → UInt64} {w1 : List Tok} {v1 : Val} (h1 : D stod Sym.Literal w1 v1) :
    D stod Sym.LiteralList w1 (.none) :=
  D.of (i := 92) (by decide) rfl (.last h1) (fun _ => rfl)
theorem by_LiteralList_2 {stod : Bytes → UInt64} {w1 : List Tok} {v1 : Val} (h1 : D stod Sym.LiteralList w1 v1) {w2 : List Tok} {v2 : Val} (h2 : D stod Sym.Literal w2 v2) :
    D stod Sym.LiteralList (w1 ++ w2) (.none) :=
  D.of (i := 93) (by decide) rfl (.cons h1 (.last h2)) (fun _ => rfl)
theorem by_Literal_1 {stod : Bytes → UInt64} {w1 : List Tok} {v1 : Val} (h1 : D stod Sym.word w1 v1) :
    D stod Sym.Literal w1 (.none) :=
  D.of (i := 94) (by decide) rfl (.last h1) (fun _ => rfl)
theorem by_word_1 {stod : Bytes → UInt64} (a1 : List Char) :
    D stod Sym.word [.upper a1] (.str (.str (String.ofList a1) : Val).asStr) :=
  D.of (i := 95) (by decide) rfl (.tok rfl .nil) (fun _ => rfl)
theorem by_word_2 {stod : Bytes → UInt64} :
    D stod Sym.word [.sym "IDENTIFIER"] (.str "") :=
  D.of (i := 96) (by decide) rfl (.tok tok69 .nil) (fun _ => rfl)
theorem by_word_3 {stod : Bytes → UInt64} :
    D stod Sym.word [.sym "BY"] (.str "") :=
  D.of (i := 97) (by decide) rfl (.tok tok40 .nil) (fun _ => rfl)
theorem by_word_4 {stod : Bytes → UInt64} :
    D stod Sym.word [.sym "WITH"] (.str "") :=
  D.of (i := 98) (by decide) rfl (.tok tok120 .nil) (fun _ => rfl)
theorem by_Value_1 {stod : Bytes → UInt64} {w1 : List Tok} {v1 : Val} (h1 : D stod Sym.ValueWithoutTypeIdentifier w1 v1) :
    D stod Sym.Value w1 (.value v1.asValue) :=
  D.of (i := 99) (by decide) rfl (.last h1) (fun _ => rfl)
theorem by_ValueWithoutTypeIdentifier_1 {stod : Bytes → UInt64} {w1 : List Tok} {v1 : Val} (h1 : D stod Sym.BooleanValue w1 v1) :
    D stod Sym.ValueWithoutTypeIdentifier w1 (.value (.list [])) :=
  D.of (i := 100) (by decide) rfl (.last h1) (fun _ => rfl)
theorem by_ValueWithoutTypeIdentifier_2 {stod : Bytes → UInt64} :
    D stod Sym.ValueWithoutTypeIdentifier [.sym "NULL"] (.value (.list [])) :=
  D.of (i := 101) (by decide) rfl (.tok tok34 .nil) (fun _ => rfl)
theorem by_ValueWithoutTypeIdentifier_3 {stod : Bytes → UInt64} (a1 : Bytes) :
    D stod Sym.ValueWithoutTypeIdentifier [.bstring a1] (.value (.bits (.str (text a1) : Val).asStr)) :=
  D.of (i := 102) (by decide) rfl (.tok rfl .nil) (fun _ => rfl)
theorem by_ValueWithoutTypeIdentifier_4 {stod : Bytes → UInt64} (a1 : Bytes) :
    D stod Sym.ValueWithoutTypeIdentifier [.hstring a1] (.value (.hex (.str (text a1) : Val).asStr)) :=
  D.of (i := 103) (by decide) rfl (.tok rfl .nil) (fun _ => rfl)
theorem by_ValueWithoutTypeIdentifier_5 {stod : Bytes → UInt64} (a1 : Bytes) :
    D stod Sym.ValueWithoutTypeIdentifier [.cstring a1] (.value (.chars (.str (text a1) : Val).asStr)) :=
  D.of (i := 104) (by decide) rfl (.tok rfl .nil) (fun _ => rfl)
theorem by_ValueWithoutTypeIdentifier_6 {stod : Bytes → UInt64} {w1 : List Tok} {v1 : Val} (h1 : D stod Sym.DefinedValue w1 v1) :
    D stod Sym.ValueWithoutTypeIdentifier w1 (.value (.defined v1.asDefined)) :=
  D.of (i := 105) (by decide) rfl (.last h1) (fun _ => rfl)
theorem by_ValueWithoutTypeIdentifier_7 {stod : Bytes → UInt64} {w1 : List Tok} {v1 : Val} (h1 : D stod Sym.SignedNumber w1 v1) :
    D stod Sym.ValueWithoutTypeIdentifier w1 (.value (.int v1.asInt)) :=
  D.of (i := 106) (by decide) rfl (.last h1) (fun _ => rfl)
theorem by_ValueWithoutTypeIdentifier_8 {stod : Bytes → UInt64} (a1 : Bytes) :
    D stod Sym.ValueWithoutTypeIdentifier [.real a1] (.value (.real (stod (.real a1 : Val).asReal))) :=
  D.of (i := 107) (by decide) rfl (.tok rfl .nil) (fun _ => rfl)
theorem by_ValueWithoutTypeIdentifier_9 {stod : Bytes → UInt64} {w2 : List Tok} {v2 : Val} (h2 : D stod Sym.SequenceOfValues w2 v2) :
    D stod Sym.ValueWithoutTypeIdentifier (.sym "{" :: (w2 ++ [.sym "}"])) (.value (.list v2.asValues)) :=
  D.of (i := 108) (by decide) rfl (.tok tok124 (.cons h2 (.tok tok125 .nil))) (fun _ => rfl)
theorem by_SequenceOfValues_1 {stod : Bytes → UInt64} {w1 : List Tok} {v1 : Val} (h1 : D stod Sym.Value_item w1 v1) :
    D stod Sym.SequenceOfValues w1 (.values [v1.asValue]) :=
  D.of (i := 109) (by decide) rfl (.last h1) (fun _ => rfl)
theorem by_SequenceOfValues_2 {stod : Bytes → UInt64} {w1 : List Tok} {v1 : Val} (h1 : D stod Sym.SequenceOfValues w1 v1) {w2 : List Tok} {v2 : Val} (h2 : D stod Sym.Value_item w2 v2) :
    D stod Sym.SequenceOfValues (w1 ++ w2) (.values (v1.asValues ++ [v2.asValue])) :=
  D.of (i := 110) (by decide) rfl (.cons h1 (.last h2)) (fun _ => rfl)
theorem by_Value_item_1 {stod : Bytes → UInt64} {w1 : List Tok} {v1 : Val} (h1 : D stod Sym.ValueWithoutTypeIdentifier_item w1 v1) :
    D stod Sym.Value_item w1 (.value v1.asValue) :=
  D.of (i := 111) (by decide) rfl (.last h1) (fun _ => rfl)
theorem by_ValueWithoutTypeIdentifier_item_1 {stod : Bytes → UInt64} {w1 : List Tok} {v1 : Val} (h1 : D stod Sym.SignedNumber w1 v1) :
    D stod Sym.ValueWithoutTypeIdentifier_item w1 (.value (.int v1.asInt)) :=
  D.of (i := 112) (by decide) rfl (.last h1) (fun _ => rfl)
theorem by_ValueWithoutTypeIdentifier_item_2 {stod : Bytes → UInt64} {w1 : List Tok} {v1 : Val} (h1 : D stod Sym.DefinedValue w1 v1) :
    D stod Sym.ValueWithoutTypeIdentifier_item w1 (.value (.defined v1.asDefined)) :=
  D.of (i := 113) (by decide) rfl (.last h1) (fun _ => rfl)
theorem by_ValueWithoutTypeIdentifier_item_3 {stod : Bytes → UInt64} (a1 : List Char) (a3 : Int) :
    D stod Sym.ValueWithoutTypeIdentifier_item (.lower a1 :: (.sym "(" :: (.number a3 :: [.sym ")"]))) (.value (.namedNumber (.str (String.ofList a1) : Val).asStr (.int a3 : Val).asInt)) :=
  D.of (i := 114) (by decide) rfl (.tok rfl (.tok tok126 (.tok rfl (.tok tok127 .nil)))) (fun _ => rfl)
theorem by_BooleanValue_1 {stod : Bytes → UInt64} :
    D stod Sym.BooleanValue [.sym "TRUE"] (.bool true) :=
  D.of (i := 115) (by decide) rfl (.tok tok110 .nil) (fun _ => rfl)
theorem by_BooleanValue_2 {stod : Bytes → UInt64} :
    D stod Sym.BooleanValue [.sym "FALSE"] (.bool false) :=
  D.of (i := 116) (by decide) rfl (.tok tok63 .nil) (fun _ => rfl)
theorem by_SignedNumber_1 {stod : Bytes → UInt64} (a1 : Int) :
    D stod Sym.SignedNumber [.number a1] (.int (.int a1 : Val).asInt) :=
  D.of (i := 117) (by decide) rfl (.tok rfl .nil) (fun _ => rfl)
theorem by_SignedNumber_2 {stod : Bytes → UInt64} (a1 : Int) :
    D stod Sym.SignedNumber [.negative a1] (.int (.int a1 : Val).asInt) :=
  D.of (i := 118) (by decide) rfl (.tok rfl .nil) (fun _ => rfl)
theorem by_DefinedValue_1 {stod : Bytes → UInt64} {w1 : List Tok} {v1 : Val} (h1 : D stod Sym.valuereference w1 v1) :
    D stod Sym.DefinedValue w1 (.defined v1.asStr) :=
  D.of (i := 119) (by decide) rfl (.last h1) (fun _ => rfl)
theorem by_typereference_1 {stod : Bytes → UInt64} (a1 : List Char) :
    D stod Sym.typereference [.upper a1] (.str (.str (String.ofList a1) : Val).asStr) :=
  D.of (i := 120) (by decide) rfl (.tok rfl .nil) (fun _ => rfl)
theorem by_identifier_1 {stod : Bytes → UInt64} (a1 : List Char) :
    D stod Sym.identifier [.lower a1] (.str (.str (String.ofList a1) : Val).asStr) :=
  D.of (i := 121) (by decide) rfl (.tok rfl .nil) (fun _ => rfl)
theorem by_valuereference_1 {stod : Bytes → UInt64} (a1 : List Char) :
    D stod Sym.valuereference [.lower a1] (.str (.str (String.ofList a1) : Val).asStr) :=
  D.of (i := 122) (by decide) rfl (.tok rfl .nil) (fun _ => rfl)
theorem by_modulereference_1 {stod : Bytes → UInt64} (a1 : List Char) :
    D stod Sym.modulereference [.upper a1] (.str (.str (String.ofList a1) : Val).asStr) :=
  D.of (i := 123) (by decide) rfl (.tok rfl .nil) (fun _ => rfl)
theorem by_Type_1 {stod : Bytes → UInt64} {w1 : List Tok} {v1 : Val} (h1 : D stod Sym.BuiltinType_null w1 v1) :
    D stod Sym.Type_ w1 (.type v1.asType) :=
  D.of (i := 124) (by decide) rfl (.last h1) (fun _ => rfl)
theorem by_Type_2 {stod : Bytes → UInt64} {w1 : List Tok} {v1 : Val} (h1 : D stod Sym.BuiltinType w1 v1) :
    D stod Sym.Type_ w1 (.type v1.asType) :=
  D.of (i := 125) (by decide) rfl (.last h1) (fun _ => rfl)
theorem by_Type_3 {stod : Bytes → UInt64} {w1 : List Tok} {v1 : Val} (h1 : D stod Sym.BuiltinType_open w1 v1) :
    D stod Sym.Type_ w1 (.type v1.asType) :=
  D.of (i := 126) (by decide) rfl (.last h1) (fun _ => rfl)
theorem by_Type_4 {stod : Bytes → UInt64} {w1 : List Tok} {v1 : Val} (h1 : D stod Sym.DefinedType w1 v1) :
    D stod Sym.Type_ w1 (.type v1.asType) :=
  D.of (i := 127) (by decide) rfl (.last h1) (fun _ => rfl)
theorem by_Type_5 {stod : Bytes → UInt64} {w1 : List Tok} {v1 : Val} (h1 : D stod Sym.ConstrainedType w1 v1) :
    D stod Sym.Type_ w1 (.type v1.asType) :=
  D.of (i := 128) (by decide) rfl (.last h1) (fun _ => rfl)
theorem by_Type_6 {stod : Bytes → UInt64} {w1 : List Tok} {v1 : Val} (h1 : D stod Sym.ConstrainedType_open w1 v1) :
    D stod Sym.Type_ w1 (.type v1.asType) :=
  D.of (i := 129) (by decide) rfl (.last h1) (fun _ => rfl)
theorem by_Type_arg_1 {stod : Bytes → UInt64} {w1 : List Tok} {v1 : Val} (h1 : D stod Sym.BuiltinType w1 v1) :
    D stod Sym.Type_arg w1 (.type v1.asType) :=
  D.of (i := 130) (by decide) rfl (.last h1) (fun _ => rfl)
theorem by_Type_arg_2 {stod : Bytes → UInt64} {w1 : List Tok} {v1 : Val} (h1 : D stod Sym.BuiltinType_open w1 v1) :
    D stod Sym.Type_arg w1 (.type v1.asType) :=
  D.of (i := 131) (by decide) rfl (.last h1) (fun _ => rfl)
theorem by_Type_arg_3 {stod : Bytes → UInt64} {w1 : List Tok} {v1 : Val} (h1 : D stod Sym.DefinedType w1 v1) :
    D stod Sym.Type_arg w1 (.type v1.asType) :=
  D.of (i := 132) (by decide) rfl (.last h1) (fun _ => rfl)
theorem by_Type_arg_4 {stod : Bytes → UInt64} {w1 : List Tok} {v1 : Val} (h1 : D stod Sym.ConstrainedType w1 v1) :
    D stod Sym.Type_arg w1 (.type v1.asType) :=
  D.of (i := 133) (by decide) rfl (.last h1) (fun _ => rfl)
theorem by_Type_arg_5 {stod : Bytes → UInt64} {w1 : List Tok} {v1 : Val} (h1 : D stod Sym.ConstrainedType_open w1 v1) :
    D stod Sym.Type_arg w1 (.type v1.asType) :=
  D.of (i := 134) (by decide) rfl (.last h1) (fun _ => rfl)
theorem by_Type_closed_1 {stod : Bytes → UInt64} {w1 : List Tok} {v1 : Val} (h1 : D stod Sym.BuiltinType_null w1 v1) :
    D stod Sym.Type_closed w1 (.type v1.asType) :=
  D.of (i := 135) (by decide) rfl (.last h1) (fun _ => rfl)
theorem by_Type_closed_2 {stod : Bytes → UInt64} {w1 : List Tok} {v1 : Val} (h1 : D stod Sym.BuiltinType w1 v1) :
    D stod Sym.Type_closed w1 (.type v1.asType) :=
  D.of (i := 136) (by decide) rfl (.last h1) (fun _ => rfl)
theorem by_Type_closed_3 {stod : Bytes → UInt64} {w1 : List Tok} {v1 : Val} (h1 : D stod Sym.DefinedType w1 v1) :
    D stod Sym.Type_closed w1 (.type v1.asType) :=
  D.of (i := 137) (by decide) rfl (.last h1) (fun _ => rfl)
theorem by_Type_closed_4 {stod : Bytes → UInt64} {w1 : List Tok} {v1 : Val} (h1 : D stod Sym.ConstrainedType w1 v1) :
    D stod Sym.Type_closed w1 (.type v1.asType) :=
  D.of (i := 138) (by decide) rfl (.last h1) (fun _ => rfl)
theorem by_ConstrainedType_1 {stod : Bytes → UInt64} {w1 : List Tok} {v1 : Val} (h1 : D stod Sym.Type_closed w1 v1) {w2 : List Tok} {v2 : Val} (h2 : D stod Sym.Constraint w2 v2) :
    D stod Sym.ConstrainedType (w1 ++ w2) (.type v1.asType) :=
  D.of (i := 139) (by decide) rfl (.cons h1 (.last h2)) (fun _ => rfl)
theorem by_ConstrainedType_open_1 {stod : Bytes → UInt64} {w1 : List Tok} {v1 : Val} (h1 : D stod Sym.TypeWithConstraint w1 v1) :
    D stod Sym.ConstrainedType_open w1 (.type v1.asType) :=
  D.of (i := 140) (by decide) rfl (.last h1) (fun _ => rfl)
theorem by_TypeWithConstraint_1 {stod : Bytes → UInt64} {w2 : List Tok} {v2 : Val} (h2 : D stod Sym.Constraint w2 v2) {w4 : List Tok} {v4 : Val} (h4 : D stod Sym.Type_ w4 v4) :
    D stod Sym.TypeWithConstraint (.sym "SET" :: (w2 ++ (.sym "OF" :: w4))) (.type (.setOf none v4.asType .smallBuffer)) :=
  D.of (i := 141) (by decide) rfl (.tok tok100 (.cons h2 (.tok tok87 (.last h4)))) (fun _ => rfl)
theorem by_TypeWithConstraint_2 {stod : Bytes → UInt64} {w2 : List Tok} {v2 : Val} (h2 : D stod Sym.SizeConstraint w2 v2) {w4 : List Tok} {v4 : Val} (h4 : D stod Sym.Type_ w4 v4) :
    D stod Sym.TypeWithConstraint (.sym "SET" :: (w2 ++ (.sym "OF" :: w4))) (.type (.setOf none v4.asType .smallBuffer)) :=
  D.of (i := 142) (by decide) rfl (.tok tok100 (.cons h2 (.tok tok87 (.last h4)))) (fun _ => rfl)
theorem by_TypeWithConstraint_3 {stod : Bytes → UInt64} {w2 : List Tok} {v2 : Val} (h2 : D stod Sym.Constraint w2 v2) {w4 : List Tok} {v4 : Val} (h4 : D stod Sym.Type_ w4 v4) :
    D stod Sym.TypeWithConstraint (.sym "SEQUENCE" :: (w2 ++ (.sym "OF" :: w4))) (.type (.seqOf none v4.asType .smallBuffer)) :=
  D.of (i := 143) (by decide) rfl (.tok tok99 (.cons h2 (.tok tok87 (.last h4)))) (fun _ => rfl)
theorem by_TypeWithConstraint_4 {stod : Bytes → UInt64} {w2 : List Tok} {v2 : Val} (h2 : D stod Sym.SizeConstraint w2 v2) {w4 : List Tok} {v4 : Val} (h4 : D stod Sym.Type_ w4 v4) :
    D stod Sym.TypeWithConstraint (.sym "SEQUENCE" :: (w2 ++ (.sym "OF" :: w4))) (.type (.seqOf none v4.asType .smallBuffer)) :=
  D.of (i := 144) (by decide) rfl (.tok tok99 (.cons h2 (.tok tok87 (.last h4)))) (fun _ => rfl)
theorem by_TypeWithConstraint_5 {stod : Bytes → UInt64} {w2 : List Tok} {v2 : Val} (h2 : D stod Sym.Constraint w2 v2) {w4 : List Tok} {v4 : Val} (h4 : D stod Sym.NamedType w4 v4) :
    D stod Sym.TypeWithConstraint (.sym "SET" :: (w2 ++ (.sym "OF" :: w4))) (.type (.setOf (some v4.asNamed.name) v4.asNamed.type .smallBuffer)) :=
  D.of (i := 145) (by decide) rfl (.tok tok100 (.cons h2 (.tok tok87 (.last h4)))) (fun _ => rfl)
theorem by_TypeWithConstraint_6 {stod : Bytes → UInt64} {w2 : List Tok} {v2 : Val} (h2 : D stod Sym.SizeConstraint w2 v2) {w4 : List Tok} {v4 : Val} (h4 : D stod Sym.NamedType w4 v4) :
    D stod Sym.TypeWithConstraint (.sym "SET" :: (w2 ++ (.sym "OF" :: w4))) (.type (.setOf (some v4.asNamed.name) v4.asNamed.type .smallBuffer)) :=
  D.of (i := 146) (by decide) rfl (.tok tok100 (.cons h2 (.tok tok87 (.last h4)))) (fun _ => rfl)
theorem by_TypeWithConstraint_7 {stod : Bytes → UInt64} {w2 : List Tok} {v2 : Val} (h2 : D stod Sym.Constraint w2 v2) {w4 : List Tok} {v4 : Val} (h4 : D stod Sym.NamedType w4 v4) :
    D stod Sym.TypeWithConstraint (.sym "SEQUENCE" :: (w2 ++ (.sym "OF" :: w4))) (.type (.seqOf (some v4.asNamed.name) v4.asNamed.type .smallBuffer)) :=
  D.of (i := 147) (by decide) rfl (.tok tok99 (.cons h2 (.tok tok87 (.last h4)))) (fun _ => rfl)
theorem by_TypeWithConstraint_8 {stod : Bytes → UInt64} {w2 : List Tok} {v2 : Val} (h2 : D stod Sym.SizeConstraint w2 v2) {w4 : List Tok} {v4 : Val} (h4 : D stod Sym.NamedType w4 v4) :
    D stod Sym.TypeWithConstraint (.sym "SEQUENCE" :: (w2 ++ (.sym "OF" :: w4))) (.type (.seqOf (some v4.asNamed.name) v4.asNamed.type .smallBuffer)) :=
  D.of (i := 148) (by decide) rfl (.tok tok99 (.cons h2 (.tok tok87 (.last h4)))) (fun _ => rfl)
theorem by_DefinedType_1 {stod : Bytes → UInt64} {w1 : List Tok} {v1 : Val} (h1 : D stod Sym.ExternalTypeReference w1 v1) :
    D stod Sym.DefinedType w1 (.type v1.asType) :=
  D.of (i := 149) (by decide) rfl (.last h1) (fun _ => rfl)
theorem by_DefinedType_2 {stod : Bytes → UInt64} {w1 : List Tok} {v1 : Val} (h1 : D stod Sym.typereference w1 v1) :
    D stod Sym.DefinedType w1 (.type (.defined none v1.asStr [])) :=
  D.of (i := 150) (by decide) rfl (.last h1) (fun _ => rfl)
theorem by_DefinedType_3 {stod : Bytes → UInt64} {w1 : List Tok} {v1 : Val} (h1 : D stod Sym.ParameterizedType w1 v1) :
    D stod Sym.DefinedType w1 (.type v1.asType) :=
  D.of (i := 151) (by decide) rfl (.last h1) (fun _ => rfl)
theorem by_ExternalTypeReference_1 {stod : Bytes → UInt64} {w1 : List Tok} {v1 : Val} (h1 : D stod Sym.typereference w1 v1) {w3 : List Tok} {v3 : Val} (h3 : D stod Sym.typereference w3 v3) :
    D stod Sym.ExternalTypeReference (w1 ++ (.sym "." :: w3)) (.type (.defined (some v1.asStr) v3.asStr [])) :=
  D.of (i := 152) (by decide) rfl (.cons h1 (.tok tok138 (.last h3))) (fun _ => rfl)
theorem by_ParameterizedType_1 {stod : Bytes → UInt64} {w1 : List Tok} {v1 : Val} (h1 : D stod Sym.SimpleDefinedType w1 v1) {w3 : List Tok} {v3 : Val} (h3 : D stod Sym.ActualParameterList w3 v3) :
    D stod Sym.ParameterizedType (w1 ++ (.sym "{" :: (w3 ++ [.sym "}"]))) (.type (.defined none v1.asStr v3.asTypes)) :=
  D.of (i := 153) (by decide) rfl (.cons h1 (.tok tok124 (.cons h3 (.tok tok125 .nil)))) (fun _ => rfl)
theorem by_SimpleDefinedType_1 {stod : Bytes → UInt64} {w1 : List Tok} {v1 : Val} (h1 : D stod Sym.typereference w1 v1) :
    D stod Sym.SimpleDefinedType w1 (.str v1.asStr) :=
  D.of (i := 154) (by decide) rfl (.last h1) (fun _ => rfl)
theorem by_ActualParameterList_1 {stod : Bytes → UInt64} {w1 : List Tok} {v1 : Val} (h1 : D stod Sym.ActualParameter w1 v1) :
    D stod Sym.ActualParameterList w1 (.types [v1.asType]) :=
  D.of (i := 155) (by decide) rfl (.last h1) (fun _ => rfl)
theorem by_ActualParameter_1 {stod : Bytes → UInt64} {w1 : List Tok} {v1 : Val} (h1 : D stod Sym.Type_arg w1 v1) :
    D stod Sym.ActualParameter w1 (.type v1.asType) :=
  D.of (i := 156) (by decide) rfl (.last h1) (fun _ => rfl)
theorem by_BuiltinType_1 {stod : Bytes → UInt64} :
    D stod Sym.BuiltinType [.sym "ANY"] (.type (.leaf .any)) :=
  D.of (i := 157) (by decide) rfl (.tok tok32 .nil) (fun _ => rfl)
theorem by_BuiltinType_2 {stod : Bytes → UInt64} {w1 : List Tok} {v1 : Val} (h1 : D stod Sym.BitStringType w1 v1) :
    D stod Sym.BuiltinType w1 (.type v1.asType) :=
  D.of (i := 158) (by decide) rfl (.last h1) (fun _ => rfl)
theorem by_BuiltinType_3 {stod : Bytes → UInt64} {w1 : List Tok} {v1 : Val} (h1 : D stod Sym.BooleanType w1 v1) :
    D stod Sym.BuiltinType w1 (.type v1.asType) :=
  D.of (i := 159) (by decide) rfl (.last h1) (fun _ => rfl)
theorem by_BuiltinType_4 {stod : Bytes → UInt64} {w1 : List Tok} {v1 : Val} (h1 : D stod Sym.CharacterStringType w1 v1) :
    D stod Sym.BuiltinType w1 (.type v1.asType) :=
  D.of (i := 160) (by decide) rfl (.last h1) (fun _ => rfl)
theorem by_BuiltinType_5 {stod : Bytes → UInt64} {w1 : List Tok} {v1 : Val} (h1 : D stod Sym.ChoiceType w1 v1) :
    D stod Sym.BuiltinType w1 (.type v1.asType) :=
  D.of (i := 161) (by decide) rfl (.last h1) (fun _ => rfl)
theorem by_BuiltinType_6 {stod : Bytes → UInt64} {w1 : List Tok} {v1 : Val} (h1 : D stod Sym.DateType w1 v1) :
    D stod Sym.BuiltinType w1 (.type v1.asType) :=
  D.of (i := 162) (by decide) rfl (.last h1) (fun _ => rfl)
theorem by_BuiltinType_7 {stod : Bytes → UInt64} {w1 : List Tok} {v1 : Val} (h1 : D stod Sym.DateTimeType w1 v1) :
    D stod Sym.BuiltinType w1 (.type v1.asType) :=
  D.of (i := 163) (by decide) rfl (.last h1) (fun _ => rfl)
theorem by_BuiltinType_8 {stod : Bytes → UInt64} {w1 : List Tok} {v1 : Val} (h1 : D stod Sym.DurationType w1 v1) :
    D stod Sym.BuiltinType w1 (.type v1.asType) :=
  D.of (i := 164) (by decide) rfl (.last h1) (fun _ => rfl)
theorem by_BuiltinType_9 {stod : Bytes → UInt64} {w1 : List Tok} {v1 : Val} (h1 : D stod Sym.EmbeddedPDVType w1 v1) :
    D stod Sym.BuiltinType w1 (.type v1.asType) :=
  D.of (i := 165) (by decide) rfl (.last h1) (fun _ => rfl)
theorem by_BuiltinType_10 {stod : Bytes → UInt64} {w1 : List Tok} {v1 : Val} (h1 : D stod Sym.EnumeratedType w1 v1) :
    D stod Sym.BuiltinType w1 (.type v1.asType) :=
  D.of (i := 166) (by decide) rfl (.last h1) (fun _ => rfl)
theorem by_BuiltinType_11 {stod : Bytes → UInt64} {w1 : List Tok} {v1 : Val} (h1 : D stod Sym.ExternalType w1 v1) :
    D stod Sym.BuiltinType w1 (.type v1.asType) :=
  D.of (i := 167) (by decide) rfl (.last h1) (fun _ => rfl)
theorem by_BuiltinType_12 {stod : Bytes → UInt64} :
    D stod Sym.BuiltinType [.sym "GeneralizedTime"] (.type (.leaf .generalizedTime)) :=
  D.of (i := 168) (by decide) rfl (.tok tok65 .nil) (fun _ => rfl)
theorem by_BuiltinType_13 {stod : Bytes → UInt64} {w1 : List Tok} {v1 : Val} (h1 : D stod Sym.IntegerType w1 v1) :
    D stod Sym.BuiltinType w1 (.type v1.asType) :=
  D.of (i := 169) (by decide) rfl (.last h1) (fun _ => rfl)
theorem by_BuiltinType_null_1 {stod : Bytes → UInt64} {w1 : List Tok} {v1 : Val} (h1 : D stod Sym.NullType w1 v1) :
    D stod Sym.BuiltinType_null w1 (.type v1.asType) :=
  D.of (i := 170) (by decide) rfl (.last h1) (fun _ => rfl)
theorem by_BuiltinType_14 {stod : Bytes → UInt64} {w1 : List Tok} {v1 : Val} (h1 : D stod Sym.ObjectClassFieldType w1 v1) :
    D stod Sym.BuiltinType w1 (.type v1.asType) :=
  D.of (i := 171) (by decide) rfl (.last h1) (fun _ => rfl)
theorem by_BuiltinType_15 {stod : Bytes → UInt64} :
    D stod Sym.BuiltinType [.sym "ObjectDescriptor"] (.type (.leaf .objectDescriptor)) :=
  D.of (i := 172) (by decide) rfl (.tok tok85 .nil) (fun _ => rfl)
theorem by_BuiltinType_16 {stod : Bytes → UInt64} {w1 : List Tok} {v1 : Val} (h1 : D stod Sym.ObjectIdentifierType w1 v1) :
    D stod Sym.BuiltinType w1 (.type v1.asType) :=
  D.of (i := 173) (by decide) rfl (.last h1) (fun _ => rfl)
theorem by_BuiltinType_17 {stod : Bytes → UInt64} {w1 : List Tok} {v1 : Val} (h1 : D stod Sym.OctetStringType w1 v1) :
    D stod Sym.BuiltinType w1 (.type v1.asType) :=
  D.of (i := 174) (by decide) rfl (.last h1) (fun _ => rfl)
theorem by_BuiltinType_18 {stod : Bytes → UInt64} {w1 : List Tok} {v1 : Val} (h1 : D stod Sym.RealType w1 v1) :
    D stod Sym.BuiltinType w1 (.type v1.asType) :=
  D.of (i := 175) (by decide) rfl (.last h1) (fun _ => rfl)
theorem by_BuiltinType_19 {stod : Bytes → UInt64} {w1 : List Tok} {v1 : Val} (h1 : D stod Sym.RelativeIRIType w1 v1) :
    D stod Sym.BuiltinType w1 (.type v1.asType) :=
  D.of (i := 176) (by decide) rfl (.last h1) (fun _ => rfl)
theorem by_BuiltinType_20 {stod : Bytes → UInt64} {w1 : List Tok} {v1 : Val} (h1 : D stod Sym.RelativeOIDType w1 v1) :
    D stod Sym.BuiltinType w1 (.type v1.asType) :=
  D.of (i := 177) (by decide) rfl (.last h1) (fun _ => rfl)
theorem by_BuiltinType_21 {stod : Bytes → UInt64} {w1 : List Tok} {v1 : Val} (h1 : D stod Sym.SequenceType w1 v1) :
    D stod Sym.BuiltinType w1 (.type v1.asType) :=
  D.of (i := 178) (by decide) rfl (.last h1) (fun _ => rfl)
theorem by_BuiltinType_22 {stod : Bytes → UInt64} {w1 : List Tok} {v1 : Val} (h1 : D stod Sym.SetType w1 v1) :
    D stod Sym.BuiltinType w1 (.type v1.asType) :=
  D.of (i := 179) (by decide) rfl (.last h1) (fun _ => rfl)
theorem by_BuiltinType_open_1 {stod : Bytes → UInt64} {w1 : List Tok} {v1 : Val} (h1 : D stod Sym.SequenceOfType w1 v1) :
    D stod Sym.BuiltinType_open w1 (.type v1.asType) :=
  D.of (i := 180) (by decide) rfl (.last h1) (fun _ => rfl)
theorem by_BuiltinType_open_2 {stod : Bytes → UInt64} {w1 : List Tok} {v1 : Val} (h1 : D stod Sym.SetOfType w1 v1) :
    D stod Sym.BuiltinType_open w1 (.type v1.asType) :=
  D.of (i := 181) (by decide) rfl (.last h1) (fun _ => rfl)
theorem by_BuiltinType_open_3 {stod : Bytes → UInt64} {w1 : List Tok} {v1 : Val} (h1 : D stod Sym.PrefixedType w1 v1) :
    D stod Sym.BuiltinType_open w1 (.type v1.asType) :=
  D.of (i := 182) (by decide) rfl (.last h1) (fun _ => rfl)
theorem by_BuiltinType_23 {stod : Bytes → UInt64} {w1 : List Tok} {v1 : Val} (h1 : D stod Sym.TimeType w1 v1) :
    D stod Sym.BuiltinType w1 (.type v1.asType) :=
  D.of (i := 183) (by decide) rfl (.last h1) (fun _ => rfl)
theorem by_BuiltinType_24 {stod : Bytes → UInt64} {w1 : List Tok} {v1 : Val} (h1 : D stod Sym.TimeOfDayType w1 v1) :
    D stod Sym.BuiltinType w1 (.type v1.asType) :=
  D.of (i := 184) (by decide) rfl (.last h1) (fun _ => rfl)
theorem by_BuiltinType_25 {stod : Bytes → UInt64} :
    D stod Sym.BuiltinType [.sym "UTCTime"] (.type (.leaf .utcTime)) :=
  D.of (i := 185) (by decide) rfl (.tok tok116 .nil) (fun _ => rfl)
theorem by_ObjectClassFieldType_1 {stod : Bytes → UInt64} {w1 : List Tok} {v1 : Val} (h1 : D stod Sym.typereference w1 v1) {w3 : List Tok} {v3 : Val} (h3 : D stod Sym.FieldNameList w3 v3) :
    D stod Sym.ObjectClassFieldType (w1 ++ (.sym "." :: w3)) (.type (.objField none v1.asStr v3.asStrs)) :=
  D.of (i := 186) (by decide) rfl (.cons h1 (.tok tok138 (.last h3))) (fun _ => rfl)
theorem by_FieldNameList_1 {stod : Bytes → UInt64} {w1 : List Tok} {v1 : Val} (h1 : D stod Sym.FieldName w1 v1) :
    D stod Sym.FieldNameList w1 (.strs [v1.asStr]) :=
  D.of (i := 187) (by decide) rfl (.last h1) (fun _ => rfl)
theorem by_FieldName_1 {stod : Bytes → UInt64} (a1 : List Char) :
    D stod Sym.FieldName [.typeField a1] (.str (.str (String.ofList a1) : Val).asStr) :=
  D.of (i := 188) (by decide) rfl (.tok rfl .nil) (fun _ => rfl)
theorem by_FieldName_2 {stod : Bytes → UInt64} (a1 : List Char) :
    D stod Sym.FieldName [.valueField a1] (.str (.str (String.ofList a1) : Val).asStr) :=
  D.of (i := 189) (by decide) rfl (.tok rfl .nil) (fun _ => rfl)
theorem by_DateType_1 {stod : Bytes → UInt64} :
    D stod Sym.DateType [.sym "DATE"] (.type (.leaf .date)) :=
  D.of (i := 190) (by decide) rfl (.tok tok48 .nil) (fun _ => rfl)
theorem by_DateTimeType_1 {stod : Bytes → UInt64} :
    D stod Sym.DateTimeType [.sym "DATE-TIME"] (.type (.leaf .dateTime)) :=
  D.of (i := 191) (by decide) rfl (.tok tok49 .nil) (fun _ => rfl)
theorem by_DurationType_1 {stod : Bytes → UInt64} :
    D stod Sym.DurationType [.sym "DURATION"] (.type (.leaf .duration)) :=
  D.of (i := 192) (by decide) rfl (.tok tok52 .nil) (fun _ => rfl)
theorem by_EmbeddedPDVType_1 {stod : Bytes → UInt64} :
    D stod Sym.EmbeddedPDVType (.sym "EMBEDDED" :: [.sym "PDV"]) (.type (.leaf .embeddedPDV)) :=
  D.of (i := 193) (by decide) rfl (.tok tok53 (.tok tok91 .nil)) (fun _ => rfl)
theorem by_ExternalType_1 {stod : Bytes → UInt64} :
    D stod Sym.ExternalType [.sym "EXTERNAL"] (.type (.leaf .external)) :=
  D.of (i := 194) (by decide) rfl (.tok tok62 .nil) (fun _ => rfl)
theorem by_RelativeIRIType_1 {stod : Bytes → UInt64} :
    D stod Sym.RelativeIRIType [.sym "RELATIVE-OID-IRI"] (.type (.leaf .relativeIRI)) :=
  D.of (i := 195) (by decide) rfl (.tok tok98 .nil) (fun _ => rfl)
theorem by_RelativeOIDType_1 {stod : Bytes → UInt64} :
    D stod Sym.RelativeOIDType [.sym "RELATIVE-OID"] (.type (.leaf .relativeOID)) :=
  D.of (i := 196) (by decide) rfl (.tok tok97 .nil) (fun _ => rfl)
theorem by_TimeType_1 {stod : Bytes → UInt64} :
    D stod Sym.TimeType [.sym "TIME"] (.type (.leaf .time)) :=
  D.of (i := 197) (by decide) rfl (.tok tok108 .nil) (fun _ => rfl)
theorem by_TimeOfDayType_1 {stod : Bytes → UInt64} :
    D stod Sym.TimeOfDayType [.sym "TIME-OF-DAY"] (.type (.leaf .timeOfDay)) :=
  D.of (i := 198) (by decide) rfl (.tok tok109 .nil) (fun _ => rfl)
theorem by_BooleanType_1 {stod : Bytes → UInt64} :
    D stod Sym.BooleanType [.sym "BOOLEAN"] (.type (.leaf .boolean)) :=
  D.of (i := 199) (by decide) rfl (.tok tok39 .nil) (fun _ => rfl)
theorem by_IntegerType_1 {stod : Bytes → UInt64} :
    D stod Sym.IntegerType [.sym "INTEGER"] (.type (.leaf .integer)) :=
  D.of (i := 200) (by decide) rfl (.tok tok76 .nil) (fun _ => rfl)
theorem by_IntegerType_2 {stod : Bytes → UInt64} {w3 : List Tok} {v3 : Val} (h3 : D stod Sym.NamedNumberList w3 v3) :
    D stod Sym.IntegerType (.sym "INTEGER" :: (.sym "{" :: (w3 ++ [.sym "}"]))) (.type (.leaf .integer)) :=
  D.of (i := 201) (by decide) rfl (.tok tok76 (.tok tok124 (.cons h3 (.tok tok125 .nil)))) (fun _ => rfl)
theorem by_NamedNumberList_1 {stod : Bytes → UInt64} {w1 : List Tok} {v1 : Val} (h1 : D stod Sym.NamedNumber w1 v1) :
    D stod Sym.NamedNumberList w1 (.nums [v1.asNum]) :=
  D.of (i := 202) (by decide) rfl (.last h1) (fun _ => rfl)
theorem by_NamedNumberList_2 {stod : Bytes → UInt64} {w1 : List Tok} {v1 : Val} (h1 : D stod Sym.NamedNumberList w1 v1) {w3 : List Tok} {v3 : Val} (h3 : D stod Sym.NamedNumber w3 v3) :
    D stod Sym.NamedNumberList (w1 ++ (.sym "," :: w3)) (.nums (v1.asNums ++ [v3.asNum])) :=
  D.of (i := 203) (by decide) rfl (.cons h1 (.tok tok137 (.last h3))) (fun _ => rfl)
theorem by_NamedNumber_1 {stod : Bytes → UInt64} {w1 : List Tok} {v1 : Val} (h1 : D stod Sym.identifier w1 v1) {w3 : List Tok} {v3 : Val} (h3 : D stod Sym.SignedNumber w3 v3) :
    D stod Sym.NamedNumber (w1 ++ (.sym "(" :: (w3 ++ [.sym ")"]))) (.num v1.asStr v3.asInt) :=
  D.of (i := 204) (by decide) rfl (.cons h1 (.tok tok126 (.cons h3 (.tok tok127 .nil)))) (fun _ => rfl)
theorem by_NamedNumber_2 {stod : Bytes → UInt64} {w1 : List Tok} {v1 : Val} (h1 : D stod Sym.identifier w1 v1) {w3 : List Tok} {v3 : Val} (h3 : D stod Sym.DefinedValue w3 v3) :
    D stod Sym.NamedNumber (w1 ++ (.sym "(" :: (w3 ++ [.sym ")"]))) (.num v1.asStr 0) :=
  D.of (i := 205) (by decide) rfl (.cons h1 (.tok tok126 (.cons h3 (.tok tok127 .nil)))) (fun _ => rfl)
theorem by_EnumeratedType_1 {stod : Bytes → UInt64} {w3 : List Tok} {v3 : Val} (h3 : D stod Sym.Enumerations w3 v3) :
    D stod Sym.EnumeratedType (.sym "ENUMERATED" :: (.sym "{" :: (w3 ++ [.sym "}"]))) (v3) :=
  D.of (i := 206) (by decide) rfl (.tok tok57 (.tok tok124 (.cons h3 (.tok tok125 .nil)))) (fun _ => rfl)
theorem by_Enumerations_1 {stod : Bytes → UInt64} {w1 : List Tok} {v1 : Val} (h1 : D stod Sym.Enumeration w1 v1) :
    D stod Sym.Enumerations w1 (.enums v1.asEnums false) :=
  D.of (i := 207) (by decide) rfl (.last h1) (fun _ => rfl)
theorem by_Enumerations_2 {stod : Bytes → UInt64} {w1 : List Tok} {v1 : Val} (h1 : D stod Sym.Enumeration w1 v1) {w4 : List Tok} {v4 : Val} (h4 : D stod Sym.ExceptionSpec w4 v4) :
    D stod Sym.Enumerations (w1 ++ (.sym "," :: (.sym "..." :: w4))) (.enums v1.asEnums true) :=
  D.of (i := 208) (by decide) rfl (.cons h1 (.tok tok137 (.tok tok122 (.last h4)))) (fun _ => rfl)
theorem by_Enumerations_3 {stod : Bytes → UInt64} {w1 : List Tok} {v1 : Val} (h1 : D stod Sym.Enumeration w1 v1) {w4 : List Tok} {v4 : Val} (h4 : D stod Sym.ExceptionSpec w4 v4) {w6 : List Tok} {v6 : Val} (h6 : D stod Sym.Enumeration w6 v6) :
    D stod Sym.Enumerations (w1 ++ (.sym "," :: (.sym "..." :: (w4 ++ (.sym "," :: w6))))) (.enums (v1.asEnums ++ v6.asEnums) true) :=
  D.of (i := 209) (by decide) rfl (.cons h1 (.tok tok137 (.tok tok122 (.cons h4 (.tok tok137 (.last h6)))))) (fun _ => rfl)
theorem by_Enumeration_1 {stod : Bytes → UInt64} {w1 : List Tok} {v1 : Val} (h1 : D stod Sym.EnumerationItem w1 v1) :
    D stod Sym.Enumeration w1 (.enums [v1.asEnumItem] false) :=
  D.of (i := 210) (by decide) rfl (.last h1) (fun _ => rfl)
theorem by_Enumeration_2 {stod : Bytes → UInt64} {w1 : List Tok} {v1 : Val} (h1 : D stod Sym.Enumeration w1 v1) {w3 : List Tok} {v3 : Val} (h3 : D stod Sym.EnumerationItem w3 v3) :
    D stod Sym.Enumeration (w1 ++ (.sym "," :: w3)) (.enums (v1.asEnums ++ [v3.asEnumItem]) false) :=
  D.of (i := 211) (by decide) rfl (.cons h1 (.tok tok137 (.last h3))) (fun _ => rfl)
theorem by_EnumerationItem_1 {stod : Bytes → UInt64} {w1 : List Tok} {v1 : Val} (h1 : D stod Sym.identifier w1 v1) :
    D stod Sym.EnumerationItem w1 (.enumItem v1.asStr none) :=
  D.of (i := 212) (by decide) rfl (.last h1) (fun _ => rfl)
theorem by_EnumerationItem_2 {stod : Bytes → UInt64} {w1 : List Tok} {v1 : Val} (h1 : D stod Sym.NamedNumber w1 v1) :
    D stod Sym.EnumerationItem w1 (.enumItem v1.asNum.1 (some v1.asNum.2)) :=
  D.of (i := 213) (by decide) rfl (.last h1) (fun _ => rfl)
theorem by_ExceptionSpec_1 {stod : Bytes → UInt64} :
    D stod Sym.ExceptionSpec [] (.none) :=
  D.of (i := 214) (by decide) rfl .nil (fun _ => rfl)
theorem by_RealType_1 {stod : Bytes → UInt64} :
    D stod Sym.RealType [.sym "REAL"] (.type (.leaf .real)) :=
  D.of (i := 215) (by decide) rfl (.tok tok96 .nil) (fun _ => rfl)
theorem by_BitStringType_1 {stod : Bytes → UInt64} :
    D stod Sym.BitStringType (.sym "BIT" :: [.sym "STRING"]) (.type (.leaf .bitString)) :=
  D.of (i := 216) (by decide) rfl (.tok tok37 (.tok tok103 .nil)) (fun _ => rfl)
theorem by_BitStringType_2 {stod : Bytes → UInt64} {w4 : List Tok} {v4 : Val} (h4 : D stod Sym.NamedBitList w4 v4) :
    D stod Sym.BitStringType (.sym "BIT" :: (.sym "STRING" :: (.sym "{" :: (w4 ++ [.sym "}"])))) (.type (.leaf .bitString)) :=
  D.of (i := 217) (by decide) rfl (.tok tok37 (.tok tok103 (.tok tok124 (.cons h4 (.tok tok125 .nil))))) (fun _ => rfl)
theorem by_NamedBitList_1 {stod : Bytes → UInt64} {w1 : List Tok} {v1 : Val} (h1 : D stod Sym.NamedBit w1 v1) :
    D stod Sym.NamedBitList w1 (.none) :=
  D.of (i := 218) (by decide) rfl (.last h1) (fun _ => rfl)
theorem by_NamedBitList_2 {stod : Bytes → UInt64} {w1 : List Tok} {v1 : Val} (h1 : D stod Sym.NamedBitList w1 v1) {w3 : List Tok} {v3 : Val} (h3 : D stod Sym.NamedBit w3 v3) :
    D stod Sym.NamedBitList (w1 ++ (.sym "," :: w3)) (.none) :=
  D.of (i := 219) (by decide) rfl (.cons h1 (.tok tok137 (.last h3))) (fun _ => rfl)
theorem by_NamedBit_1 {stod : Bytes → UInt64} {w1 : List Tok} {v1 : Val} (h1 : D stod Sym.identifier w1 v1) (a3 : Int) :
    D stod Sym.NamedBit (w1 ++ (.sym "(" :: (.number a3 :: [.sym ")"]))) (.none) :=
  D.of (i := 220) (by decide) rfl (.cons h1 (.tok tok126 (.tok rfl (.tok tok127 .nil)))) (fun _ => rfl)
theorem by_NamedBit_2 {stod : Bytes → UInt64} {w1 : List Tok} {v1 : Val} (h1 : D stod Sym.identifier w1 v1) {w3 : List Tok} {v3 : Val} (h3 : D stod Sym.DefinedValue w3 v3) :
    D stod Sym.NamedBit (w1 ++ (.sym "(" :: (w3 ++ [.sym ")"]))) (.none) :=
  D.of (i := 221) (by decide) rfl (.cons h1 (.tok tok126 (.cons h3 (.tok tok127 .nil)))) (fun _ => rfl)
theorem by_OctetStringType_1 {stod : Bytes → UInt64} :
    D stod Sym.OctetStringType (.sym "OCTET" :: [.sym "STRING"]) (.type (.leaf .octetString)) :=
  D.of (i := 222) (by decide) rfl (.tok tok86 (.tok tok103 .nil)) (fun _ => rfl)
theorem by_NullType_1 {stod : Bytes → UInt64} :
    D stod Sym.NullType [.sym "NULL"] (.type (.leaf .null)) :=
  D.of (i := 223) (by decide) rfl (.tok tok34 .nil) (fun _ => rfl)
theorem by_ObjectIdentifierType_1 {stod : Bytes → UInt64} :
    D stod Sym.ObjectIdentifierType (.sym "OBJECT" :: [.sym "IDENTIFIER"]) (.type (.leaf .objectIdentifier)) :=
  D.of (i := 224) (by decide) rfl (.tok tok84 (.tok tok69 .nil)) (fun _ => rfl)
theorem by_CharacterStringType_1 {stod : Bytes → UInt64} {w1 : List Tok} {v1 : Val} (h1 : D stod Sym.RestrictedCharacterStringType w1 v1) :
    D stod Sym.CharacterStringType w1 (.type v1.asType) :=
  D.of (i := 225) (by decide) rfl (.last h1) (fun _ => rfl)
theorem by_CharacterStringType_2 {stod : Bytes → UInt64} {w1 : List Tok} {v1 : Val} (h1 : D stod Sym.UnrestrictedCharacterStringType w1 v1) :
    D stod Sym.CharacterStringType w1 (.type v1.asType) :=
  D.of (i := 226) (by decide) rfl (.last h1) (fun _ => rfl)
theorem by_UnrestrictedCharacterStringType_1 {stod : Bytes → UInt64} :
    D stod Sym.UnrestrictedCharacterStringType (.sym "CHARACTER" :: [.sym "STRING"]) (.type (.leaf (.charString 29))) :=
  D.of (i := 227) (by decide) rfl (.tok tok41 (.tok tok103 .nil)) (fun _ => rfl)
theorem by_RestrictedCharacterStringType_1 {stod : Bytes → UInt64} :
    D stod Sym.RestrictedCharacterStringType [.sym "BMPString"] (.type (.leaf (.charString 30))) :=
  D.of (i := 228) (by decide) rfl (.tok tok38 .nil) (fun _ => rfl)
theorem by_RestrictedCharacterStringType_2 {stod : Bytes → UInt64} :
    D stod Sym.RestrictedCharacterStringType [.sym "GeneralString"] (.type (.leaf (.charString 27))) :=
  D.of (i := 229) (by decide) rfl (.tok tok66 .nil) (fun _ => rfl)
theorem by_RestrictedCharacterStringType_3 {stod : Bytes → UInt64} :
    D stod Sym.RestrictedCharacterStringType [.sym "GraphicString"] (.type (.leaf (.charString 25))) :=
  D.of (i := 230) (by decide) rfl (.tok tok67 .nil) (fun _ => rfl)
theorem by_RestrictedCharacterStringType_4 {stod : Bytes → UInt64} :
    D stod Sym.RestrictedCharacterStringType [.sym "IA5String"] (.type (.leaf (.charString 22))) :=
  D.of (i := 231) (by decide) rfl (.tok tok68 .nil) (fun _ => rfl)
theorem by_RestrictedCharacterStringType_5 {stod : Bytes → UInt64} :
    D stod Sym.RestrictedCharacterStringType [.sym "ISO646String"] (.type (.leaf (.charString 26))) :=
  D.of (i := 232) (by decide) rfl (.tok tok78 .nil) (fun _ => rfl)
theorem by_RestrictedCharacterStringType_6 {stod : Bytes → UInt64} :
    D stod Sym.RestrictedCharacterStringType [.sym "NumericString"] (.type (.leaf (.charString 18))) :=
  D.of (i := 233) (by decide) rfl (.tok tok83 .nil) (fun _ => rfl)
theorem by_RestrictedCharacterStringType_7 {stod : Bytes → UInt64} :
    D stod Sym.RestrictedCharacterStringType [.sym "PrintableString"] (.type (.leaf (.charString 19))) :=
  D.of (i := 234) (by decide) rfl (.tok tok94 .nil) (fun _ => rfl)
theorem by_RestrictedCharacterStringType_8 {stod : Bytes → UInt64} :
    D stod Sym.RestrictedCharacterStringType [.sym "TeletexString"] (.type (.leaf (.charString 20))) :=
  D.of (i := 235) (by decide) rfl (.tok tok107 .nil) (fun _ => rfl)
theorem by_RestrictedCharacterStringType_9 {stod : Bytes → UInt64} :
    D stod Sym.RestrictedCharacterStringType [.sym "T61String"] (.type (.leaf .t61String)) :=
  D.of (i := 236) (by decide) rfl (.tok tok105 .nil) (fun _ => rfl)
theorem by_RestrictedCharacterStringType_10 {stod : Bytes → UInt64} :
    D stod Sym.RestrictedCharacterStringType [.sym "UniversalString"] (.type (.leaf (.charString 28))) :=
  D.of (i := 237) (by decide) rfl (.tok tok115 .nil) (fun _ => rfl)
theorem by_RestrictedCharacterStringType_11 {stod : Bytes → UInt64} :
    D stod Sym.RestrictedCharacterStringType [.sym "UTF8String"] (.type (.leaf (.charString 12))) :=
  D.of (i := 238) (by decide) rfl (.tok tok117 .nil) (fun _ => rfl)
theorem by_RestrictedCharacterStringType_12 {stod : Bytes → UInt64} :
    D stod Sym.RestrictedCharacterStringType [.sym "VideotexString"] (.type (.leaf (.charString 21))) :=
  D.of (i := 239) (by decide) rfl (.tok tok118 .nil) (fun _ => rfl)
theorem by_RestrictedCharacterStringType_13 {stod : Bytes → UInt64} :
    D stod Sym.RestrictedCharacterStringType [.sym "VisibleString"] (.type (.leaf (.charString 26))) :=
  D.of (i := 240) (by decide) rfl (.tok tok119 .nil) (fun _ => rfl)
theorem by_SequenceType_1 {stod : Bytes → UInt64} :
    D stod Sym.SequenceType (.sym "SEQUENCE" :: (.sym "{" :: [.sym "}"])) (.type (.sequence [] false)) :=
  D.of (i := 241) (by decide) rfl (.tok tok99 (.tok tok124 (.tok tok125 .nil))) (fun _ => rfl)
theorem by_SequenceType_2 {stod : Bytes → UInt64} {w3 : List Tok} {v3 : Val} (h3 : D stod Sym.ComponentTypeLists w3 v3) :
    D stod Sym.SequenceType (.sym "SEQUENCE" :: (.sym "{" :: (w3 ++ [.sym "}"]))) (.type (.sequence v3.asCollection.1 v3.asCollection.2)) :=
  D.of (i := 242) (by decide) rfl (.tok tok99 (.tok tok124 (.cons h3 (.tok tok125 .nil)))) (fun _ => rfl)
theorem by_SetType_1 {stod : Bytes → UInt64} :
    D stod Sym.SetType (.sym "SET" :: (.sym "{" :: [.sym "}"])) (.type (.set [] false)) :=
  D.of (i := 243) (by decide) rfl (.tok tok100 (.tok tok124 (.tok tok125 .nil))) (fun _ => rfl)
theorem by_SetType_2 {stod : Bytes → UInt64} {w3 : List Tok} {v3 : Val} (h3 : D stod Sym.ComponentTypeLists w3 v3) :
    D stod Sym.SetType (.sym "SET" :: (.sym "{" :: (w3 ++ [.sym "}"]))) (.type (.set v3.asCollection.1 v3.asCollection.2)) :=
  D.of (i := 244) (by decide) rfl (.tok tok100 (.tok tok124 (.cons h3 (.tok tok125 .nil)))) (fun _ => rfl)
theorem by_ComponentTypeLists_1 {stod : Bytes → UInt64} {w1 : List Tok} {v1 : Val} (h1 : D stod Sym.ComponentTypeList w1 v1) :
    D stod Sym.ComponentTypeLists w1 (.collection v1.asComps false) :=
  D.of (i := 245) (by decide) rfl (.last h1) (fun _ => rfl)
theorem by_ComponentTypeLists_2 {stod : Bytes → UInt64} {w1 : List Tok} {v1 : Val} (h1 : D stod Sym.ComponentTypeList w1 v1) {w4 : List Tok} {v4 : Val} (h4 : D stod Sym.ExceptionSpec w4 v4) :
    D stod Sym.ComponentTypeLists (w1 ++ (.sym "," :: (.sym "..." :: w4))) (.collection v1.asComps true) :=
  D.of (i := 246) (by decide) rfl (.cons h1 (.tok tok137 (.tok tok122 (.last h4)))) (fun _ => rfl)
theorem by_ComponentTypeLists_3 {stod : Bytes → UInt64} {w1 : List Tok} {v1 : Val} (h1 : D stod Sym.ComponentTypeList w1 v1) {w4 : List Tok} {v4 : Val} (h4 : D stod Sym.ExceptionSpec w4 v4) {w6 : List Tok} {v6 : Val} (h6 : D stod Sym.ComponentTypeList w6 v6) :
    D stod Sym.ComponentTypeLists (w1 ++ (.sym "," :: (.sym "..." :: (w4 ++ (.sym "," :: w6))))) (.collection (v1.asComps ++ v6.asComps) true) :=
  D.of (i := 247) (by decide) rfl (.cons h1 (.tok tok137 (.tok tok122 (.cons h4 (.tok tok137 (.last h6)))))) (fun _ => rfl)
theorem by_ComponentTypeLists_4 {stod : Bytes → UInt64} {w1 : List Tok} {v1 : Val} (h1 : D stod Sym.ComponentTypeList w1 v1) {w4 : List Tok} {v4 : Val} (h4 : D stod Sym.ExceptionSpec w4 v4) {w6 : List Tok} {v6 : Val} (h6 : D stod Sym.ComponentTypeList w6 v6) :
    D stod Sym.ComponentTypeLists (w1 ++ (.sym "," :: (.sym "..." :: (w4 ++ (.sym "," :: (w6 ++ (.sym "," :: [.sym "..."]))))))) (.collection (v1.asComps ++ v6.asComps) true) :=
  D.of (i := 248) (by decide) rfl (.cons h1 (.tok tok137 (.tok tok122 (.cons h4 (.tok tok137 (.cons h6 (.tok tok137 (.tok tok122 .nil)))))))) (fun _ => rfl)
theorem by_ComponentTypeLists_5 {stod : Bytes → UInt64} {w1 : List Tok} {v1 : Val} (h1 : D stod Sym.ComponentTypeList w1 v1) {w4 : List Tok} {v4 : Val} (h4 : D stod Sym.ExceptionSpec w4 v4) {w6 : List Tok} {v6 : Val} (h6 : D stod Sym.ComponentTypeList w6 v6) {w10 : List Tok} {v10 : Val} (h10 : D stod Sym.ComponentTypeList w10 v10) :
    D stod Sym.ComponentTypeLists (w1 ++ (.sym "," :: (.sym "..." :: (w4 ++ (.sym "," :: (w6 ++ (.sym "," :: (.sym "..." :: (.sym "," :: w10))))))))) (.collection (v1.asComps ++ v6.asComps ++ v10.asComps) true) :=
  D.of (i := 249) (by decide) rfl (.cons h1 (.tok tok137 (.tok tok122 (.cons h4 (.tok tok137 (.cons h6 (.tok tok137 (.tok tok122 (.tok tok137 (.last h10)))))))))) (fun _ => rfl)
theorem by_ComponentTypeLists_6 {stod : Bytes → UInt64} {w2 : List Tok} {v2 : Val} (h2 : D stod Sym.ExceptionSpec w2 v2) {w4 : List Tok} {v4 : Val} (h4 : D stod Sym.ComponentTypeList w4 v4) :
    D stod Sym.ComponentTypeLists (.sym "..." :: (w2 ++ (.sym "," :: w4))) (.collection v4.asComps true) :=
  D.of (i := 250) (by decide) rfl (.tok tok122 (.cons h2 (.tok tok137 (.last h4)))) (fun _ => rfl)
theorem by_ComponentTypeLists_7 {stod : Bytes → UInt64} {w2 : List Tok} {v2 : Val} (h2 : D stod Sym.ExceptionSpec w2 v2) {w4 : List Tok} {v4 : Val} (h4 : D stod Sym.ComponentTypeList w4 v4) :
    D stod Sym.ComponentTypeLists (.sym "..." :: (w2 ++ (.sym "," :: (w4 ++ (.sym "," :: [.sym "..."]))))) (.collection v4.asComps true) :=
  D.of (i := 251) (by decide) rfl (.tok tok122 (.cons h2 (.tok tok137 (.cons h4 (.tok tok137 (.tok tok122 .nil)))))) (fun _ => rfl)
theorem by_ComponentTypeLists_8 {stod : Bytes → UInt64} {w2 : List Tok} {v2 : Val} (h2 : D stod Sym.ExceptionSpec w2 v2) :
    D stod Sym.ComponentTypeLists (.sym "..." :: w2) (.collection [] true) :=
  D.of (i := 252) (by decide) rfl (.tok tok122 (.last h2)) (fun _ => rfl)
theorem by_ComponentTypeLists_9 {stod : Bytes → UInt64} {w2 : List Tok} {v2 : Val} (h2 : D stod Sym.ExceptionSpec w2 v2) :
    D stod Sym.ComponentTypeLists (.sym "..." :: (w2 ++ (.sym "," :: [.sym "..."]))) (.collection [] true) :=
  D.of (i := 253) (by decide) rfl (.tok tok122 (.cons h2 (.tok tok137 (.tok tok122 .nil)))) (fun _ => rfl)
theorem by_ComponentTypeList_1 {stod : Bytes → UInt64} {w1 : List Tok} {v1 : Val} (h1 : D stod Sym.ComponentType w1 v1) :
    D stod Sym.ComponentTypeList w1 (.comps [v1.asComp]) :=
  D.of (i := 254) (by decide) rfl (.last h1) (fun _ => rfl)
theorem by_ComponentTypeList_2 {stod : Bytes → UInt64} {w1 : List Tok} {v1 : Val} (h1 : D stod Sym.ComponentTypeList w1 v1) {w3 : List Tok} {v3 : Val} (h3 : D stod Sym.ComponentType w3 v3) :
    D stod Sym.ComponentTypeList (w1 ++ (.sym "," :: w3)) (.comps (v1.asComps ++ [v3.asComp])) :=
  D.of (i := 255) (by decide) rfl (.cons h1 (.tok tok137 (.last h3))) (fun _ => rfl)
theorem by_ComponentType_1 {stod : Bytes → UInt64} {w1 : List Tok} {v1 : Val} (h1 : D stod Sym.NamedType w1 v1) :
    D stod Sym.ComponentType w1 (.comp (.mk v1.asNamed.name v1.asNamed.type false none none .static_)) :=
  D.of (i := 256) (by decide) rfl (.last h1) (fun _ => rfl)
theorem by_ComponentType_2 {stod : Bytes → UInt64} {w1 : List Tok} {v1 : Val} (h1 : D stod Sym.NamedType w1 v1) :
    D stod Sym.ComponentType (w1 ++ [.sym "OPTIONAL"]) (.comp (.mk v1.asNamed.name v1.asNamed.type true none none .static_)) :=
  D.of (i := 257) (by decide) rfl (.cons h1 (.tok tok89 .nil)) (fun _ => rfl)
theorem by_ComponentType_3 {stod : Bytes → UInt64} {w1 : List Tok} {v1 : Val} (h1 : D stod Sym.NamedType w1 v1) {w3 : List Tok} {v3 : Val} (h3 : D stod Sym.SingleValue w3 v3) :
    D stod Sym.ComponentType (w1 ++ (.sym "DEFAULT" :: w3)) (.comp (.mk v1.asNamed.name v1.asNamed.type false (some v3.asValue) none .static_)) :=
  D.of (i := 258) (by decide) rfl (.cons h1 (.tok tok50 (.last h3))) (fun _ => rfl)
theorem by_ComponentType_4 {stod : Bytes → UInt64} {w3 : List Tok} {v3 : Val} (h3 : D stod Sym.Type_ w3 v3) :
    D stod Sym.ComponentType (.sym "COMPONENTS" :: (.sym "OF" :: w3)) (.comp (.mk "" (.leaf .any) false none (some v3.asType) .static_)) :=
  D.of (i := 259) (by decide) rfl (.tok tok45 (.tok tok87 (.last h3))) (fun _ => rfl)
theorem by_SingleValue_1 {stod : Bytes → UInt64} {w1 : List Tok} {v1 : Val} (h1 : D stod Sym.BooleanValue w1 v1) :
    D stod Sym.SingleValue w1 (.value (.bool v1.asBool)) :=
  D.of (i := 260) (by decide) rfl (.last h1) (fun _ => rfl)
theorem by_SingleValue_2 {stod : Bytes → UInt64} :
    D stod Sym.SingleValue [.sym "NULL"] (.value .null) :=
  D.of (i := 261) (by decide) rfl (.tok tok34 .nil) (fun _ => rfl)
theorem by_SingleValue_3 {stod : Bytes → UInt64} (a1 : Bytes) :
    D stod Sym.SingleValue [.bstring a1] (.value (.str (.str (text a1) : Val).asStr)) :=
  D.of (i := 262) (by decide) rfl (.tok rfl .nil) (fun _ => rfl)
theorem by_SingleValue_4 {stod : Bytes → UInt64} (a1 : Bytes) :
    D stod Sym.SingleValue [.hstring a1] (.value (.str (.str (text a1) : Val).asStr)) :=
  D.of (i := 263) (by decide) rfl (.tok rfl .nil) (fun _ => rfl)
theorem by_SingleValue_5 {stod : Bytes → UInt64} (a1 : Bytes) :
    D stod Sym.SingleValue [.cstring a1] (.value (.str (.str (text a1) : Val).asStr)) :=
  D.of (i := 264) (by decide) rfl (.tok rfl .nil) (fun _ => rfl)
theorem by_SingleValue_6 {stod : Bytes → UInt64} {w1 : List Tok} {v1 : Val} (h1 : D stod Sym.DefinedValue w1 v1) :
    D stod Sym.SingleValue w1 (.value (.defined v1.asDefined)) :=
  D.of (i := 265) (by decide) rfl (.last h1) (fun _ => rfl)
theorem by_SingleValue_7 {stod : Bytes → UInt64} {w1 : List Tok} {v1 : Val} (h1 : D stod Sym.SignedNumber w1 v1) :
    D stod Sym.SingleValue w1 (.value (.int v1.asInt)) :=
  D.of (i := 266) (by decide) rfl (.last h1) (fun _ => rfl)
theorem by_SingleValue_8 {stod : Bytes → UInt64} (a1 : Bytes) :
    D stod Sym.SingleValue [.real a1] (.value (.real (stod (.real a1 : Val).asReal))) :=
  D.of (i := 267) (by decide) rfl (.tok rfl .nil) (fun _ => rfl)
theorem by_SingleValue_c_1 {stod : Bytes → UInt64} {w1 : List Tok} {v1 : Val} (h1 : D stod Sym.BooleanValue w1 v1) :
    D stod Sym.SingleValue_c w1 (.value (.bool v1.asBool)) :=
  D.of (i := 268) (by decide) rfl (.last h1) (fun _ => rfl)
theorem by_SingleValue_c_2 {stod : Bytes → UInt64} (a1 : Bytes) :
    D stod Sym.SingleValue_c [.bstring a1] (.value (.str (.str (text a1) : Val).asStr)) :=
  D.of (i := 269) (by decide) rfl (.tok rfl .nil) (fun _ => rfl)
theorem by_SingleValue_c_3 {stod : Bytes → UInt64} (a1 : Bytes) :
    D stod Sym.SingleValue_c [.hstring a1] (.value (.str (.str (text a1) : Val).asStr)) :=
  D.of (i := 270) (by decide) rfl (.tok rfl .nil) (fun _ => rfl)
theorem by_SingleValue_c_4 {stod : Bytes → UInt64} (a1 : Bytes) :
    D stod Sym.SingleValue_c [.cstring a1] (.value (.str (.str (text a1) : Val).asStr)) :=
  D.of (i := 271) (by decide) rfl (.tok rfl .nil) (fun _ => rfl)
theorem by_SingleValue_c_5 {stod : Bytes → UInt64} {w1 : List Tok} {v1 : Val} (h1 : D stod Sym.DefinedValue w1 v1) :
    D stod Sym.SingleValue_c w1 (.value (.defined v1.asDefined)) :=
  D.of (i := 272) (by decide) rfl (.last h1) (fun _ => rfl)
theorem by_SingleValue_c_6 {stod : Bytes → UInt64} {w1 : List Tok} {v1 : Val} (h1 : D stod Sym.SignedNumber w1 v1) :
    D stod Sym.SingleValue_c w1 (.value (.int v1.asInt)) :=
  D.of (i := 273) (by decide) rfl (.last h1) (fun _ => rfl)
theorem by_SingleValue_c_7 {stod : Bytes → UInt64} (a1 : Bytes) :
    D stod Sym.SingleValue_c [.real a1] (.value (.real (stod (.real a1 : Val).asReal))) :=
  D.of (i := 274) (by decide) rfl (.tok rfl .nil) (fun _ => rfl)
theorem by_NamedType_1 {stod : Bytes → UInt64} {w1 : List Tok} {v1 : Val} (h1 : D stod Sym.identifier w1 v1) {w2 : List Tok} {v2 : Val} (h2 : D stod Sym.Type_ w2 v2) :
    D stod Sym.NamedType (w1 ++ w2) (.named (.mk v1.asStr v2.asType)) :=
  D.of (i := 275) (by decide) rfl (.cons h1 (.last h2)) (fun _ => rfl)
theorem by_SequenceOfType_1 {stod : Bytes → UInt64} {w3 : List Tok} {v3 : Val} (h3 : D stod Sym.Type_ w3 v3) :
    D stod Sym.SequenceOfType (.sym "SEQUENCE" :: (.sym "OF" :: w3)) (.type (.seqOf none v3.asType .smallBuffer)) :=
  D.of (i := 276) (by decide) rfl (.tok tok99 (.tok tok87 (.last h3))) (fun _ => rfl)
theorem by_SequenceOfType_2 {stod : Bytes → UInt64} {w3 : List Tok} {v3 : Val} (h3 : D stod Sym.NamedType w3 v3) :
    D stod Sym.SequenceOfType (.sym "SEQUENCE" :: (.sym "OF" :: w3)) (.type (.seqOf (some v3.asNamed.name) v3.asNamed.type .smallBuffer)) :=
  D.of (i := 277) (by decide) rfl (.tok tok99 (.tok tok87 (.last h3))) (fun _ => rfl)
theorem by_SetOfType_1 {stod : Bytes → UInt64} {w3 : List Tok} {v3 : Val} (h3 : D stod Sym.Type_ w3 v3) :
    D stod Sym.SetOfType (.sym "SET" :: (.sym "OF" :: w3)) (.type (.setOf none v3.asType .smallBuffer)) :=
  D.of (i := 278) (by decide) rfl (.tok tok100 (.tok tok87 (.last h3))) (fun _ => rfl)
theorem by_SetOfType_2 {stod : Bytes → UInt64} {w3 : List Tok} {v3 : Val} (h3 : D stod Sym.NamedType w3 v3) :
    D stod Sym.SetOfType (.sym "SET" :: (.sym "OF" :: w3)) (.type (.setOf (some v3.asNamed.name) v3.asNamed.type .smallBuffer)) :=
  D.of (i := 279) (by decide) rfl (.tok tok100 (.tok tok87 (.last h3))) (fun _ => rfl)
theorem by_ChoiceType_1 {stod : Bytes → UInt64} {w3 : List Tok} {v3 : Val} (h3 : D stod Sym.AlternativeTypeLists w3 v3) :
    D stod Sym.ChoiceType (.sym "CHOICE" :: (.sym "{" :: (w3 ++ [.sym "}"]))) (.type (.choice v3.asNameds .static_)) :=
  D.of (i := 280) (by decide) rfl (.tok tok42 (.tok tok124 (.cons h3 (.tok tok125 .nil)))) (fun _ => rfl)
theorem by_AlternativeTypeLists_1 {stod : Bytes → UInt64} {w1 : List Tok} {v1 : Val} (h1 : D stod Sym.RootAlternativeTypeList w1 v1) :
    D stod Sym.AlternativeTypeLists w1 (.nameds v1.asNameds) :=
  D.of (i := 281) (by decide) rfl (.last h1) (fun _ => rfl)
theorem by_RootAlternativeTypeList_1 {stod : Bytes → UInt64} {w1 : List Tok} {v1 : Val} (h1 : D stod Sym.AlternativeTypeList w1 v1) :
    D stod Sym.RootAlternativeTypeList w1 (.nameds v1.asNameds) :=
  D.of (i := 282) (by decide) rfl (.last h1) (fun _ => rfl)
theorem by_RootAlternativeTypeList_2 {stod : Bytes → UInt64} {w1 : List Tok} {v1 : Val} (h1 : D stod Sym.AlternativeTypeList w1 v1) :
    D stod Sym.RootAlternativeTypeList (w1 ++ (.sym "," :: [.sym "..."])) (.nameds v1.asNameds) :=
  D.of (i := 283) (by decide) rfl (.cons h1 (.tok tok137 (.tok tok122 .nil))) (fun _ => rfl)
theorem by_RootAlternativeTypeList_3 {stod : Bytes → UInt64} {w1 : List Tok} {v1 : Val} (h1 : D stod Sym.AlternativeTypeList w1 v1) {w5 : List Tok} {v5 : Val} (h5 : D stod Sym.AlternativeTypeList w5 v5) :
    D stod Sym.RootAlternativeTypeList (w1 ++ (.sym "," :: (.sym "..." :: (.sym "," :: w5)))) (.nameds (v5.asNameds ++ v1.asNameds)) :=
  D.of (i := 284) (by decide) rfl (.cons h1 (.tok tok137 (.tok tok122 (.tok tok137 (.last h5))))) (fun _ => rfl)
theorem by_AlternativeTypeList_1 {stod : Bytes → UInt64} {w1 : List Tok} {v1 : Val} (h1 : D stod Sym.NamedType w1 v1) :
    D stod Sym.AlternativeTypeList w1 (.nameds [v1.asNamed]) :=
  D.of (i := 285) (by decide) rfl (.last h1) (fun _ => rfl)
theorem by_AlternativeTypeList_2 {stod : Bytes → UInt64} {w1 : List Tok} {v1 : Val} (h1 : D stod Sym.AlternativeTypeList w1 v1) {w3 : List Tok} {v3 : Val} (h3 : D stod Sym.NamedType w3 v3) :
    D stod Sym.AlternativeTypeList (w1 ++ (.sym "," :: w3)) (.nameds (v1.asNameds ++ [v3.asNamed])) :=
  D.of (i := 286) (by decide) rfl (.cons h1 (.tok tok137 (.last h3))) (fun _ => rfl)
theorem by_PrefixedType_1 {stod : Bytes → UInt64} {w1 : List Tok} {v1 : Val} (h1 : D stod Sym.TaggedType w1 v1) :
    D stod Sym.PrefixedType w1 (.type v1.asType) :=
  D.of (i := 287) (by decide) rfl (.last h1) (fun _ => rfl)
theorem by_TaggedType_1 {stod : Bytes → UInt64} {w1 : List Tok} {v1 : Val} (h1 : D stod Sym.Tag w1 v1) {w2 : List Tok} {v2 : Val} (h2 : D stod Sym.Type_ w2 v2) :
    D stod Sym.TaggedType (w1 ++ w2) (tagged v1.asTag .automatic v2.asType) :=
  D.of (i := 288) (by decide) rfl (.cons h1 (.last h2)) (fun _ => rfl)
theorem by_TaggedType_2 {stod : Bytes → UInt64} {w1 : List Tok} {v1 : Val} (h1 : D stod Sym.Tag w1 v1) {w3 : List Tok} {v3 : Val} (h3 : D stod Sym.Type_ w3 v3) :
    D stod Sym.TaggedType (w1 ++ (.sym "IMPLICIT" :: w3)) (tagged v1.asTag .implicit v3.asType) :=
  D.of (i := 289) (by decide) rfl (.cons h1 (.tok tok70 (.last h3))) (fun _ => rfl)
theorem by_TaggedType_3 {stod : Bytes → UInt64} {w1 : List Tok} {v1 : Val} (h1 : D stod Sym.Tag w1 v1) {w3 : List Tok} {v3 : Val} (h3 : D stod Sym.Type_ w3 v3) :
    D stod Sym.TaggedType (w1 ++ (.sym "EXPLICIT" :: w3)) (tagged v1.asTag .explicit_ v3.asType) :=
  D.of (i := 290) (by decide) rfl (.cons h1 (.tok tok59 (.last h3))) (fun _ => rfl)
theorem by_Tag_1 {stod : Bytes → UInt64} {w2 : List Tok} {v2 : Val} (h2 : D stod Sym.EncodingReference w2 v2) {w3 : List Tok} {v3 : Val} (h3 : D stod Sym.Class w3 v3) {w4 : List Tok} {v4 : Val} (h4 : D stod Sym.ClassNumber w4 v4) :
    D stod Sym.Tag (.sym "[" :: (w2 ++ (w3 ++ (w4 ++ [.sym "]"])))) (.tag v3.asCls v4.asInt) :=
  D.of (i := 291) (by decide) rfl (.tok tok128 (.cons h2 (.cons h3 (.cons h4 (.tok tok129 .nil))))) (fun _ => rfl)
theorem by_EncodingReference_1 {stod : Bytes → UInt64} :
    D stod Sym.EncodingReference [] (.none) :=
  D.of (i := 292) (by decide) rfl .nil (fun _ => rfl)
theorem by_Class_1 {stod : Bytes → UInt64} :
    D stod Sym.Class [.sym "UNIVERSAL"] (.cls .universal) :=
  D.of (i := 293) (by decide) rfl (.tok tok114 .nil) (fun _ => rfl)
theorem by_Class_2 {stod : Bytes → UInt64} :
    D stod Sym.Class [.sym "APPLICATION"] (.cls .application) :=
  D.of (i := 294) (by decide) rfl (.tok tok33 .nil) (fun _ => rfl)
theorem by_Class_3 {stod : Bytes → UInt64} :
    D stod Sym.Class [.sym "PRIVATE"] (.cls .private_) :=
  D.of (i := 295) (by decide) rfl (.tok tok95 .nil) (fun _ => rfl)
theorem by_Class_4 {stod : Bytes → UInt64} :
    D stod Sym.Class [] (.cls .contextSpecific) :=
  D.of (i := 296) (by decide) rfl .nil (fun _ => rfl)
theorem by_ClassNumber_1 {stod : Bytes → UInt64} (a1 : Int) :
    D stod Sym.ClassNumber [.number a1] (.int (wrap32 (.int a1 : Val).asInt)) :=
  D.of (i := 297) (by decide) rfl (.tok rfl .nil) (fun _ => rfl)
theorem by_ClassNumber_2 {stod : Bytes → UInt64} {w1 : List Tok} {v1 : Val} (h1 : D stod Sym.DefinedValue w1 v1) :
    D stod Sym.ClassNumber w1 (.int 0) :=
  D.of (i := 298) (by decide) rfl (.last h1) (fun _ => rfl)
theorem by_Constraint_1 {stod : Bytes → UInt64} {w2 : List Tok} {v2 : Val} (h2 : D stod Sym.ConstraintSpec w2 v2) {w3 : List Tok} {v3 : Val} (h3 : D stod Sym.ExceptionSpec w3 v3) :
    D stod Sym.Constraint (.sym "(" :: (w2 ++ (w3 ++ [.sym ")"]))) (.none) :=
  D.of (i := 299) (by decide) rfl (.tok tok126 (.cons h2 (.cons h3 (.tok tok127 .nil)))) (fun _ => rfl)
theorem by_ConstraintSpec_1 {stod : Bytes → UInt64} {w1 : List Tok} {v1 : Val} (h1 : D stod Sym.SubtypeConstraint w1 v1) :
    D stod Sym.ConstraintSpec w1 (.none) :=
  D.of (i := 300) (by decide) rfl (.last h1) (fun _ => rfl)
theorem by_ConstraintSpec_2 {stod : Bytes → UInt64} {w1 : List Tok} {v1 : Val} (h1 : D stod Sym.GeneralConstraint w1 v1) :
    D stod Sym.ConstraintSpec w1 (.none) :=
  D.of (i := 301) (by decide) rfl (.last h1) (fun _ => rfl)
theorem by_GeneralConstraint_1 {stod : Bytes → UInt64} {w1 : List Tok} {v1 : Val} (h1 : D stod Sym.ContentsConstraint w1 v1) :
    D stod Sym.GeneralConstraint w1 (.none) :=
  D.of (i := 302) (by decide) rfl (.last h1) (fun _ => rfl)
theorem by_GeneralConstraint_2 {stod : Bytes → UInt64} {w1 : List Tok} {v1 : Val} (h1 : D stod Sym.UserDefinedConstraint w1 v1) :
    D stod Sym.GeneralConstraint w1 (.none) :=
  D.of (i := 303) (by decide) rfl (.last h1) (fun _ => rfl)
theorem by_GeneralConstraint_3 {stod : Bytes → UInt64} {w1 : List Tok} {v1 : Val} (h1 : D stod Sym.TableConstraint w1 v1) :
    D stod Sym.GeneralConstraint w1 (.none) :=
  D.of (i := 304) (by decide) rfl (.last h1) (fun _ => rfl)
theorem by_UserDefinedConstraint_1 {stod : Bytes → UInt64} {w4 : List Tok} {v4 : Val} (h4 : D stod Sym.UserDefinedConstraintParameter w4 v4) :
    D stod Sym.UserDefinedConstraint (.sym "CONSTRAINED" :: (.sym "BY" :: (.sym "{" :: (w4 ++ [.sym "}"])))) (.none) :=
  D.of (i := 305) (by decide) rfl (.tok tok46 (.tok tok40 (.tok tok124 (.cons h4 (.tok tok125 .nil))))) (fun _ => rfl)
theorem by_UserDefinedConstraintParameter_1 {stod : Bytes → UInt64} :
    D stod Sym.UserDefinedConstraintParameter [] (.none) :=
  D.of (i := 306) (by decide) rfl .nil (fun _ => rfl)
theorem by_TableConstraint_1 {stod : Bytes → UInt64} {w1 : List Tok} {v1 : Val} (h1 : D stod Sym.ObjectSet w1 v1) :
    D stod Sym.TableConstraint w1 (.none) :=
  D.of (i := 307) (by decide) rfl (.last h1) (fun _ => rfl)
theorem by_TableConstraint_2 {stod : Bytes → UInt64} {w1 : List Tok} {v1 : Val} (h1 : D stod Sym.ObjectSet w1 v1) {w3 : List Tok} {v3 : Val} (h3 : D stod Sym.AtNotationList w3 v3) :
    D stod Sym.TableConstraint (w1 ++ (.sym "{" :: (w3 ++ [.sym "}"]))) (.none) :=
  D.of (i := 308) (by decide) rfl (.cons h1 (.tok tok124 (.cons h3 (.tok tok125 .nil)))) (fun _ => rfl)
theorem by_AtNotationList_1 {stod : Bytes → UInt64} {w1 : List Tok} {v1 : Val} (h1 : D stod Sym.AtNotation w1 v1) :
    D stod Sym.AtNotationList w1 (.none) :=
  D.of (i := 309) (by decide) rfl (.last h1) (fun _ => rfl)
theorem by_AtNotationList_2 {stod : Bytes → UInt64} {w1 : List Tok} {v1 : Val} (h1 : D stod Sym.AtNotationList w1 v1) {w3 : List Tok} {v3 : Val} (h3 : D stod Sym.AtNotation w3 v3) :
    D stod Sym.AtNotationList (w1 ++ (.sym "," :: w3)) (.none) :=
  D.of (i := 310) (by decide) rfl (.cons h1 (.tok tok137 (.last h3))) (fun _ => rfl)
theorem by_AtNotation_1 {stod : Bytes → UInt64} {w2 : List Tok} {v2 : Val} (h2 : D stod Sym.ComponentIdList w2 v2) :
    D stod Sym.AtNotation (.sym "@" :: w2) (.none) :=
  D.of (i := 311) (by decide) rfl (.tok tok144 (.last h2)) (fun _ => rfl)
theorem by_ComponentIdList_1 {stod : Bytes → UInt64} {w1 : List Tok} {v1 : Val} (h1 : D stod Sym.identifier w1 v1) :
    D stod Sym.ComponentIdList w1 (.none) :=
  D.of (i := 312) (by decide) rfl (.last h1) (fun _ => rfl)
theorem by_ComponentIdList_2 {stod : Bytes → UInt64} {w1 : List Tok} {v1 : Val} (h1 : D stod Sym.ComponentIdList w1 v1) {w3 : List Tok} {v3 : Val} (h3 : D stod Sym.identifier w3 v3) :
    D stod Sym.ComponentIdList (w1 ++ (.sym "." :: w3)) (.none) :=
  D.of (i := 313) (by decide) rfl (.cons h1 (.tok tok138 (.last h3))) (fun _ => rfl)
theorem by_ObjectSet_1 {stod : Bytes → UInt64} {w2 : List Tok} {v2 : Val} (h2 : D stod Sym.ObjectSetSpec w2 v2) :
    D stod Sym.ObjectSet (.sym "{" :: (w2 ++ [.sym "}"])) (.none) :=
  D.of (i := 314) (by decide) rfl (.tok tok124 (.cons h2 (.tok tok125 .nil))) (fun _ => rfl)
theorem by_ObjectSetSpec_1 {stod : Bytes → UInt64} {w1 : List Tok} {v1 : Val} (h1 : D stod Sym.ElementSetSpec_set w1 v1) :
    D stod Sym.ObjectSetSpec w1 (.none) :=
  D.of (i := 315) (by decide) rfl (.last h1) (fun _ => rfl)
theorem by_ElementSetSpec_set_1 {stod : Bytes → UInt64} {w1 : List Tok} {v1 : Val} (h1 : D stod Sym.Unions_set w1 v1) :
    D stod Sym.ElementSetSpec_set w1 (.none) :=
  D.of (i := 316) (by decide) rfl (.last h1) (fun _ => rfl)
theorem by_Unions_set_1 {stod : Bytes → UInt64} {w1 : List Tok} {v1 : Val} (h1 : D stod Sym.Intersections_set w1 v1) :
    D stod Sym.Unions_set w1 (.none) :=
  D.of (i := 317) (by decide) rfl (.last h1) (fun _ => rfl)
theorem by_Intersections_set_1 {stod : Bytes → UInt64} {w1 : List Tok} {v1 : Val} (h1 : D stod Sym.IntersectionElements_set w1 v1) :
    D stod Sym.Intersections_set w1 (.none) :=
  D.of (i := 318) (by decide) rfl (.last h1) (fun _ => rfl)
theorem by_IntersectionElements_set_1 {stod : Bytes → UInt64} {w1 : List Tok} {v1 : Val} (h1 : D stod Sym.Elements_set w1 v1) :
    D stod Sym.IntersectionElements_set w1 (.none) :=
  D.of (i := 319) (by decide) rfl (.last h1) (fun _ => rfl)
theorem by_Elements_set_1 {stod : Bytes → UInt64} {w1 : List Tok} {v1 : Val} (h1 : D stod Sym.SubtypeElements_set w1 v1) :
    D stod Sym.Elements_set w1 (.none) :=
  D.of (i := 320) (by decide) rfl (.last h1) (fun _ => rfl)
theorem by_SubtypeElements_set_1 {stod : Bytes → UInt64} {w1 : List Tok} {v1 : Val} (h1 : D stod Sym.SingleValue_set w1 v1) :
    D stod Sym.SubtypeElements_set w1 (.none) :=
  D.of (i := 321) (by decide) rfl (.last h1) (fun _ => rfl)
theorem by_SingleValue_set_1 {stod : Bytes → UInt64} (a1 : List Char) :
    D stod Sym.SingleValue_set [.upper a1] (.value (.str (.str (String.ofList a1) : Val).asStr)) :=
  D.of (i := 322) (by decide) rfl (.tok rfl .nil) (fun _ => rfl)
theorem by_ContentsConstraint_1 {stod : Bytes → UInt64} {w2 : List Tok} {v2 : Val} (h2 : D stod Sym.Type_ w2 v2) :
    D stod Sym.ContentsConstraint (.sym "CONTAINING" :: w2) (.none) :=
  D.of (i := 323) (by decide) rfl (.tok tok47 (.last h2)) (fun _ => rfl)
theorem by_SubtypeConstraint_1 {stod : Bytes → UInt64} {w1 : List Tok} {v1 : Val} (h1 : D stod Sym.ElementSetSpecs w1 v1) :
    D stod Sym.SubtypeConstraint w1 (.none) :=
  D.of (i := 324) (by decide) rfl (.last h1) (fun _ => rfl)
theorem by_ElementSetSpecs_1 {stod : Bytes → UInt64} {w1 : List Tok} {v1 : Val} (h1 : D stod Sym.ElementSetSpec w1 v1) :
    D stod Sym.ElementSetSpecs w1 (.none) :=
  D.of (i := 325) (by decide) rfl (.last h1) (fun _ => rfl)
theorem by_ElementSetSpecs_2 {stod : Bytes → UInt64} {w1 : List Tok} {v1 : Val} (h1 : D stod Sym.ElementSetSpec w1 v1) :
    D stod Sym.ElementSetSpecs (w1 ++ (.sym "," :: [.sym "..."])) (.none) :=
  D.of (i := 326) (by decide) rfl (.cons h1 (.tok tok137 (.tok tok122 .nil))) (fun _ => rfl)
theorem by_ElementSetSpecs_3 {stod : Bytes → UInt64} {w1 : List Tok} {v1 : Val} (h1 : D stod Sym.ElementSetSpec w1 v1) {w5 : List Tok} {v5 : Val} (h5 : D stod Sym.ElementSetSpec w5 v5) :
    D stod Sym.ElementSetSpecs (w1 ++ (.sym "," :: (.sym "..." :: (.sym "," :: w5)))) (.none) :=
  D.of (i := 327) (by decide) rfl (.cons h1 (.tok tok137 (.tok tok122 (.tok tok137 (.last h5))))) (fun _ => rfl)
theorem by_ElementSetSpec_1 {stod : Bytes → UInt64} {w1 : List Tok} {v1 : Val} (h1 : D stod Sym.Unions w1 v1) :
    D stod Sym.ElementSetSpec w1 (.none) :=
  D.of (i := 328) (by decide) rfl (.last h1) (fun _ => rfl)
theorem by_ElementSetSpec_2 {stod : Bytes → UInt64} {w2 : List Tok} {v2 : Val} (h2 : D stod Sym.Exclusions w2 v2) :
    D stod Sym.ElementSetSpec (.sym "ALL" :: w2) (.none) :=
  D.of (i := 329) (by decide) rfl (.tok tok31 (.last h2)) (fun _ => rfl)
theorem by_Unions_1 {stod : Bytes → UInt64} {w1 : List Tok} {v1 : Val} (h1 : D stod Sym.Intersections w1 v1) :
    D stod Sym.Unions w1 (.none) :=
  D.of (i := 330) (by decide) rfl (.last h1) (fun _ => rfl)
theorem by_Unions_2 {stod : Bytes → UInt64} {w1 : List Tok} {v1 : Val} (h1 : D stod Sym.UElems w1 v1) {w2 : List Tok} {v2 : Val} (h2 : D stod Sym.UnionMark w2 v2) {w3 : List Tok} {v3 : Val} (h3 : D stod Sym.Intersections w3 v3) :
    D stod Sym.Unions (w1 ++ (w2 ++ w3)) (.none) :=
  D.of (i := 331) (by decide) rfl (.cons h1 (.cons h2 (.last h3))) (fun _ => rfl)
theorem by_UElems_1 {stod : Bytes → UInt64} {w1 : List Tok} {v1 : Val} (h1 : D stod Sym.Unions w1 v1) :
    D stod Sym.UElems w1 (.none) :=
  D.of (i := 332) (by decide) rfl (.last h1) (fun _ => rfl)
theorem by_Intersections_1 {stod : Bytes → UInt64} {w1 : List Tok} {v1 : Val} (h1 : D stod Sym.IntersectionElements w1 v1) :
    D stod Sym.Intersections w1 (.none) :=
  D.of (i := 333) (by decide) rfl (.last h1) (fun _ => rfl)
theorem by_Intersections_2 {stod : Bytes → UInt64} {w1 : List Tok} {v1 : Val} (h1 : D stod Sym.IElems w1 v1) {w2 : List Tok} {v2 : Val} (h2 : D stod Sym.IntersectionMark w2 v2) {w3 : List Tok} {v3 : Val} (h3 : D stod Sym.IntersectionElements w3 v3) :
    D stod Sym.Intersections (w1 ++ (w2 ++ w3)) (.none) :=
  D.of (i := 334) (by decide) rfl (.cons h1 (.cons h2 (.last h3))) (fun _ => rfl)
theorem by_IElems_1 {stod : Bytes → UInt64} {w1 : List Tok} {v1 : Val} (h1 : D stod Sym.Intersections w1 v1) :
    D stod Sym.IElems w1 (.none) :=
  D.of (i := 335) (by decide) rfl (.last h1) (fun _ => rfl)
theorem by_IntersectionElements_1 {stod : Bytes → UInt64} {w1 : List Tok} {v1 : Val} (h1 : D stod Sym.Elements w1 v1) :
    D stod Sym.IntersectionElements w1 (.none) :=
  D.of (i := 336) (by decide) rfl (.last h1) (fun _ => rfl)
theorem by_IntersectionElements_2 {stod : Bytes → UInt64} {w1 : List Tok} {v1 : Val} (h1 : D stod Sym.Elems w1 v1) {w2 : List Tok} {v2 : Val} (h2 : D stod Sym.Exclusions w2 v2) :
    D stod Sym.IntersectionElements (w1 ++ w2) (.none) :=
  D.of (i := 337) (by decide) rfl (.cons h1 (.last h2)) (fun _ => rfl)
theorem by_Elems_1 {stod : Bytes → UInt64} {w1 : List Tok} {v1 : Val} (h1 : D stod Sym.Elements w1 v1) :
    D stod Sym.Elems w1 (.none) :=
  D.of (i := 338) (by decide) rfl (.last h1) (fun _ => rfl)
theorem by_Exclusions_1 {stod : Bytes → UInt64} {w2 : List Tok} {v2 : Val} (h2 : D stod Sym.Elements w2 v2) :
    D stod Sym.Exclusions (.sym "EXCEPT" :: w2) (.none) :=
  D.of (i := 339) (by decide) rfl (.tok tok58 (.last h2)) (fun _ => rfl)
theorem by_UnionMark_1 {stod : Bytes → UInt64} :
    D stod Sym.UnionMark [.sym "|"] (.none) :=
  D.of (i := 340) (by decide) rfl (.tok tok145 .nil) (fun _ => rfl)
theorem by_UnionMark_2 {stod : Bytes → UInt64} :
    D stod Sym.UnionMark [.sym "UNION"] (.none) :=
  D.of (i := 341) (by decide) rfl (.tok tok112 .nil) (fun _ => rfl)
theorem by_IntersectionMark_1 {stod : Bytes → UInt64} :
    D stod Sym.IntersectionMark [.sym "^"] (.none) :=
  D.of (i := 342) (by decide) rfl (.tok tok146 .nil) (fun _ => rfl)
theorem by_IntersectionMark_2 {stod : Bytes → UInt64} :
    D stod Sym.IntersectionMark [.sym "INTERSECTION"] (.none) :=
  D.of (i := 343) (by decide) rfl (.tok tok77 .nil) (fun _ => rfl)
theorem by_Elements_1 {stod : Bytes → UInt64} {w1 : List Tok} {v1 : Val} (h1 : D stod Sym.SubtypeElements w1 v1) :
    D stod Sym.Elements w1 (.none) :=
  D.of (i := 344) (by decide) rfl (.last h1) (fun _ => rfl)
theorem by_Elements_2 {stod : Bytes → UInt64} {w2 : List Tok} {v2 : Val} (h2 : D stod Sym.ElementSetSpecs w2 v2) :
    D stod Sym.Elements (.sym "(" :: (w2 ++ [.sym ")"])) (.none) :=
  D.of (i := 345) (by decide) rfl (.tok tok126 (.cons h2 (.tok tok127 .nil))) (fun _ => rfl)
theorem by_SubtypeElements_1 {stod : Bytes → UInt64} {w1 : List Tok} {v1 : Val} (h1 : D stod Sym.SingleValue_c w1 v1) :
    D stod Sym.SubtypeElements w1 (.none) :=
  D.of (i := 346) (by decide) rfl (.last h1) (fun _ => rfl)
theorem by_SubtypeElements_2 {stod : Bytes → UInt64} {w1 : List Tok} {v1 : Val} (h1 : D stod Sym.ValueRange w1 v1) :
    D stod Sym.SubtypeElements w1 (.none) :=
  D.of (i := 347) (by decide) rfl (.last h1) (fun _ => rfl)
theorem by_SubtypeElements_3 {stod : Bytes → UInt64} {w1 : List Tok} {v1 : Val} (h1 : D stod Sym.PermittedAlphabet w1 v1) :
    D stod Sym.SubtypeElements w1 (.none) :=
  D.of (i := 348) (by decide) rfl (.last h1) (fun _ => rfl)
theorem by_SubtypeElements_4 {stod : Bytes → UInt64} {w1 : List Tok} {v1 : Val} (h1 : D stod Sym.SizeConstraint w1 v1) :
    D stod Sym.SubtypeElements w1 (.none) :=
  D.of (i := 349) (by decide) rfl (.last h1) (fun _ => rfl)
theorem by_SubtypeElements_5 {stod : Bytes → UInt64} {w1 : List Tok} {v1 : Val} (h1 : D stod Sym.InnerTypeConstraints w1 v1) :
    D stod Sym.SubtypeElements w1 (.none) :=
  D.of (i := 350) (by decide) rfl (.last h1) (fun _ => rfl)
theorem by_ValueRange_1 {stod : Bytes → UInt64} {w1 : List Tok} {v1 : Val} (h1 : D stod Sym.LowerEndpoint w1 v1) {w3 : List Tok} {v3 : Val} (h3 : D stod Sym.UpperEndpoint w3 v3) :
    D stod Sym.ValueRange (w1 ++ (.sym ".." :: w3)) (.none) :=
  D.of (i := 351) (by decide) rfl (.cons h1 (.tok tok123 (.last h3))) (fun _ => rfl)
theorem by_LowerEndpoint_1 {stod : Bytes → UInt64} {w1 : List Tok} {v1 : Val} (h1 : D stod Sym.LowerEndValue w1 v1) :
    D stod Sym.LowerEndpoint w1 (.none) :=
  D.of (i := 352) (by decide) rfl (.last h1) (fun _ => rfl)
theorem by_UpperEndpoint_1 {stod : Bytes → UInt64} {w1 : List Tok} {v1 : Val} (h1 : D stod Sym.UpperEndValue w1 v1) :
    D stod Sym.UpperEndpoint w1 (.none) :=
  D.of (i := 353) (by decide) rfl (.last h1) (fun _ => rfl)
theorem by_UpperEndpoint_2 {stod : Bytes → UInt64} {w2 : List Tok} {v2 : Val} (h2 : D stod Sym.UpperEndValue w2 v2) :
    D stod Sym.UpperEndpoint (.sym "<" :: w2) (.none) :=
  D.of (i := 354) (by decide) rfl (.tok tok130 (.last h2)) (fun _ => rfl)
theorem by_LowerEndValue_1 {stod : Bytes → UInt64} {w1 : List Tok} {v1 : Val} (h1 : D stod Sym.SingleValue_c w1 v1) :
    D stod Sym.LowerEndValue w1 (.none) :=
  D.of (i := 355) (by decide) rfl (.last h1) (fun _ => rfl)
theorem by_LowerEndValue_2 {stod : Bytes → UInt64} :
    D stod Sym.LowerEndValue [.sym "MIN"] (.none) :=
  D.of (i := 356) (by decide) rfl (.tok tok80 .nil) (fun _ => rfl)
theorem by_UpperEndValue_1 {stod : Bytes → UInt64} {w1 : List Tok} {v1 : Val} (h1 : D stod Sym.SingleValue_c w1 v1) :
    D stod Sym.UpperEndValue w1 (.none) :=
  D.of (i := 357) (by decide) rfl (.last h1) (fun _ => rfl)
theorem by_UpperEndValue_2 {stod : Bytes → UInt64} :
    D stod Sym.UpperEndValue [.sym "MAX"] (.none) :=
  D.of (i := 358) (by decide) rfl (.tok tok79 .nil) (fun _ => rfl)
theorem by_SizeConstraint_1 {stod : Bytes → UInt64} {w2 : List Tok} {v2 : Val} (h2 : D stod Sym.Constraint w2 v2) :
    D stod Sym.SizeConstraint (.sym "SIZE" :: w2) (.none) :=
  D.of (i := 359) (by decide) rfl (.tok tok102 (.last h2)) (fun _ => rfl)
theorem by_PermittedAlphabet_1 {stod : Bytes → UInt64} {w2 : List Tok} {v2 : Val} (h2 : D stod Sym.Constraint w2 v2) :
    D stod Sym.PermittedAlphabet (.sym "FROM" :: w2) (.none) :=
  D.of (i := 360) (by decide) rfl (.tok tok64 (.last h2)) (fun _ => rfl)
theorem by_InnerTypeConstraints_1 {stod : Bytes → UInt64} {w3 : List Tok} {v3 : Val} (h3 : D stod Sym.SingleTypeConstraint w3 v3) :
    D stod Sym.InnerTypeConstraints (.sym "WITH" :: (.sym "COMPONENT" :: w3)) (.none) :=
  D.of (i := 361) (by decide) rfl (.tok tok120 (.tok tok44 (.last h3))) (fun _ => rfl)
theorem by_InnerTypeConstraints_2 {stod : Bytes → UInt64} {w3 : List Tok} {v3 : Val} (h3 : D stod Sym.MultipleTypeConstraints w3 v3) :
    D stod Sym.InnerTypeConstraints (.sym "WITH" :: (.sym "COMPONENTS" :: w3)) (.none) :=
  D.of (i := 362) (by decide) rfl (.tok tok120 (.tok tok45 (.last h3))) (fun _ => rfl)
theorem by_SingleTypeConstraint_1 {stod : Bytes → UInt64} {w1 : List Tok} {v1 : Val} (h1 : D stod Sym.Constraint w1 v1) :
    D stod Sym.SingleTypeConstraint w1 (.none) :=
  D.of (i := 363) (by decide) rfl (.last h1) (fun _ => rfl)
theorem by_MultipleTypeConstraints_1 {stod : Bytes → UInt64} :
    D stod Sym.MultipleTypeConstraints (.sym "{" :: (.sym "..." :: [.sym "}"])) (.none) :=
  D.of (i := 364) (by decide) rfl (.tok tok124 (.tok tok122 (.tok tok125 .nil))) (fun _ => rfl)
theorem by_MultipleTypeConstraints_2 {stod : Bytes → UInt64} {w4 : List Tok} {v4 : Val} (h4 : D stod Sym.TypeConstraints w4 v4) :
    D stod Sym.MultipleTypeConstraints (.sym "{" :: (.sym "..." :: (.sym "," :: (w4 ++ [.sym "}"])))) (.none) :=
  D.of (i := 365) (by decide) rfl (.tok tok124 (.tok tok122 (.tok tok137 (.cons h4 (.tok tok125 .nil))))) (fun _ => rfl)
theorem by_MultipleTypeConstraints_3 {stod : Bytes → UInt64} {w2 : List Tok} {v2 : Val} (h2 : D stod Sym.TypeConstraints w2 v2) :
    D stod Sym.MultipleTypeConstraints (.sym "{" :: (w2 ++ [.sym "}"])) (.none) :=
  D.of (i := 366) (by decide) rfl (.tok tok124 (.cons h2 (.tok tok125 .nil))) (fun _ => rfl)
theorem by_TypeConstraints_1 {stod : Bytes → UInt64} {w1 : List Tok} {v1 : Val} (h1 : D stod Sym.NamedConstraint w1 v1) :
    D stod Sym.TypeConstraints w1 (.none) :=
  D.of (i := 367) (by decide) rfl (.last h1) (fun _ => rfl)
theorem by_TypeConstraints_2 {stod : Bytes → UInt64} {w1 : List Tok} {v1 : Val} (h1 : D stod Sym.NamedConstraint w1 v1) {w3 : List Tok} {v3 : Val} (h3 : D stod Sym.TypeConstraints w3 v3) :
    D stod Sym.TypeConstraints (w1 ++ (.sym "," :: w3)) (.none) :=
  D.of (i := 368) (by decide) rfl (.cons h1 (.tok tok137 (.last h3))) (fun _ => rfl)
theorem by_NamedConstraint_1 {stod : Bytes → UInt64} {w1 : List Tok} {v1 : Val} (h1 : D stod Sym.identifier w1 v1) {w2 : List Tok} {v2 : Val} (h2 : D stod Sym.ComponentConstraint w2 v2) :
    D stod Sym.NamedConstraint (w1 ++ w2) (.none) :=
  D.of (i := 369) (by decide) rfl (.cons h1 (.last h2)) (fun _ => rfl)
theorem by_ComponentConstraint_1 {stod : Bytes → UInt64} {w1 : List Tok} {v1 : Val} (h1 : D stod Sym.ValueConstraint w1 v1) {w2 : List Tok} {v2 : Val} (h2 : D stod Sym.PresenceConstraint w2 v2) :
    D stod Sym.ComponentConstraint (w1 ++ w2) (.none) :=
  D.of (i := 370) (by decide) rfl (.cons h1 (.last h2)) (fun _ => rfl)
theorem by_ValueConstraint_1 {stod : Bytes → UInt64} {w1 : List Tok} {v1 : Val} (h1 : D stod Sym.Constraint w1 v1) :
    D stod Sym.ValueConstraint w1 (.none) :=
  D.of (i := 371) (by decide) rfl (.last h1) (fun _ => rfl)
theorem by_ValueConstraint_2 {stod : Bytes → UInt64} :
    D stod Sym.ValueConstraint [] (.none) :=
  D.of (i := 372) (by decide) rfl .nil (fun _ => rfl)
theorem by_PresenceConstraint_1 {stod : Bytes → UInt64} :
    D stod Sym.PresenceConstraint [.sym "PRESENT"] (.none) :=
  D.of (i := 373) (by decide) rfl (.tok tok93 .nil) (fun _ => rfl)
theorem by_PresenceConstraint_2 {stod : Bytes → UInt64} :
    D stod Sym.PresenceConstraint [.sym "ABSENT"] (.none) :=
  D.of (i := 374) (by decide) rfl (.tok tok29 .nil) (fun _ => rfl)
theorem by_PresenceConstraint_3 {stod : Bytes → UInt64} :
    D stod Sym.PresenceConstraint [.sym "OPTIONAL"] (.none) :=
  D.of (i := 375) (by decide) rfl (.tok tok89 .nil) (fun _ => rfl)
theorem by_PresenceConstraint_4 {stod : Bytes → UInt64} :
    D stod Sym.PresenceConstraint [] (.none) :=
  D.of (i := 376) (by decide) rfl .nil (fun _ => rfl)

end FastBer.Parser
