import Verif.Model.Ast
import Verif.Model.Lexer
/-!
# The values of the parser

Models the semantic values of the parser bison makes of `src/compiler/asn_compiler.yacc`: every symbol of the grammar has a value, whose
type is given by `%type` (asn_compiler.yacc:191-322).  A value is put on the stack when the symbol is, and the action of a rule computes
the value of its left-hand side (`$$`) from those of its right-hand side (`$1`, `$2`, ...).
-/
namespace FastBer.Parser
open FastBer Ast Lexer

/-- The value of a symbol.  Everything that is a type (`Type`, `BuiltinType`, `DefinedType`, `TaggedType`, `SequenceType`, ...) is kept as
the `AType` it becomes as soon as it is stored in a `Type`; only ENUMERATED keeps its items.  `none`: a symbol without `%type`, and
`std::vector<Export>`, which is always empty.  (`%type`, asn_compiler.yacc:191-322) -/
inductive Val where
  | none
  | str (s : Name)
  | int (i : Int)
  | real (text : Bytes)
  | defined (ref : Name)
  | type (t : AType)
  | types (ts : List AType)
  | enumItem (name : Name) (value : Option Int)
  | enums (items : List (Name × Option Int)) (ext : Bool)
  | num (name : Name) (i : Int)
  | nums (ns : List (Name × Int))
  | named (n : Named)
  | nameds (ns : List Named)
  | comp (c : Comp)
  | comps (cs : List Comp)
  | collection (cs : List Comp) (ext : Bool)
  | tag (cls : Cls) (num : Int)
  | cls (c : Cls)
  | mode (m : TagMode)
  | value (v : Value)
  | values (vs : List Value)
  | bool (b : Bool)
  | time (s : Name)
  | strs (ss : List Name)
  | fields (fs : List ClassField)
  | assignment (a : Assignment)
  | assignments (as : List Assignment)
  | param (p : Param)
  | params (ps : List Param)
  | import_ (i : Import)
  | imports (is : List Import)
  | oid (name : Option Name) (value : Option Int)
  | oids (vs : List (Option Name × Option Int))
  | module_ (imports : List Import) (assignments : List Assignment)

namespace Val

/-! `$k` as a value of the type `%type` gives it.  The other cases do not occur; they give what `emplace<T>()` makes. -/

/-- `$k` of this type: `yystack_[…].value.as<T>()` (autogen_copy/asn_compiler.hpp:8018-9620). -/
def asStr : Val → Name | str s => s | _ => ""
/-- `$k` of this type: `yystack_[…].value.as<T>()` (autogen_copy/asn_compiler.hpp:8018-9620). -/
def asInt : Val → Int | int i => i | _ => 0
/-- `$k` of this type: `yystack_[…].value.as<T>()` (autogen_copy/asn_compiler.hpp:8018-9620). -/
def asReal : Val → Bytes | real b => b | _ => []
/-- `$k` of this type: `yystack_[…].value.as<T>()` (autogen_copy/asn_compiler.hpp:8018-9620). -/
def asDefined : Val → Name | defined s => s | _ => ""
/-- `BuiltinType`'s first alternative is `AnyType` (CompilerTypes.hpp:378-384). -/
def asType : Val → AType | type t => t | enums _ _ => .leaf .enumerated | _ => .leaf .any
/-- `$k` of this type: `yystack_[…].value.as<T>()` (autogen_copy/asn_compiler.hpp:8018-9620). -/
def asTypes : Val → List AType | types ts => ts | _ => []
/-- `$k` of this type: `yystack_[…].value.as<T>()` (autogen_copy/asn_compiler.hpp:8018-9620). -/
def asEnumItem : Val → Name × Option Int | enumItem n v => (n, v) | _ => ("", Option.none)
/-- `$k` of this type: `yystack_[…].value.as<T>()` (autogen_copy/asn_compiler.hpp:8018-9620). -/
def asEnums : Val → List (Name × Option Int) | enums is _ => is | _ => []
/-- `$k` of this type: `yystack_[…].value.as<T>()` (autogen_copy/asn_compiler.hpp:8018-9620). -/
def asNum : Val → Name × Int | num n i => (n, i) | _ => ("", 0)
/-- `$k` of this type: `yystack_[…].value.as<T>()` (autogen_copy/asn_compiler.hpp:8018-9620). -/
def asNums : Val → List (Name × Int) | nums ns => ns | _ => []
/-- `$k` of this type: `yystack_[…].value.as<T>()` (autogen_copy/asn_compiler.hpp:8018-9620). -/
def asNamed : Val → Named | named n => n | _ => .mk "" (.leaf .any)
/-- `$k` of this type: `yystack_[…].value.as<T>()` (autogen_copy/asn_compiler.hpp:8018-9620). -/
def asNameds : Val → List Named | nameds ns => ns | _ => []
/-- `$k` of this type: `yystack_[…].value.as<T>()` (autogen_copy/asn_compiler.hpp:8018-9620). -/
def asComp : Val → Comp | comp c => c | _ => .mk "" (.leaf .any) false Option.none Option.none .static_
/-- `$k` of this type: `yystack_[…].value.as<T>()` (autogen_copy/asn_compiler.hpp:8018-9620). -/
def asComps : Val → List Comp | comps cs => cs | _ => []
/-- `$k` of this type: `yystack_[…].value.as<T>()` (autogen_copy/asn_compiler.hpp:8018-9620). -/
def asCollection : Val → List Comp × Bool | collection cs e => (cs, e) | _ => ([], false)
/-- `$k` of this type: `yystack_[…].value.as<T>()` (autogen_copy/asn_compiler.hpp:8018-9620). -/
def asTag : Val → Cls × Int | tag c n => (c, n) | _ => (.universal, 0)
/-- `$k` of this type: `yystack_[…].value.as<T>()` (autogen_copy/asn_compiler.hpp:8018-9620). -/
def asCls : Val → Cls | cls c => c | _ => .universal
/-- `$k` of this type: `yystack_[…].value.as<T>()` (autogen_copy/asn_compiler.hpp:8018-9620). -/
def asMode : Val → TagMode | mode m => m | _ => .explicit_
/-- `value_selection`'s first alternative is `std::vector<Value>` (CompilerTypes.hpp:468-473). -/
def asValue : Val → Value | value v => v | _ => .list []
/-- `$k` of this type: `yystack_[…].value.as<T>()` (autogen_copy/asn_compiler.hpp:8018-9620). -/
def asValues : Val → List Value | values vs => vs | _ => []
/-- `$k` of this type: `yystack_[…].value.as<T>()` (autogen_copy/asn_compiler.hpp:8018-9620). -/
def asBool : Val → Bool | bool b => b | _ => false
/-- `$k` of this type: `yystack_[…].value.as<T>()` (autogen_copy/asn_compiler.hpp:8018-9620). -/
def asTime : Val → Name | time s => s | _ => ""
/-- `$k` of this type: `yystack_[…].value.as<T>()` (autogen_copy/asn_compiler.hpp:8018-9620). -/
def asStrs : Val → List Name | strs ss => ss | _ => []
/-- `$k` of this type: `yystack_[…].value.as<T>()` (autogen_copy/asn_compiler.hpp:8018-9620). -/
def asFields : Val → List ClassField | fields fs => fs | _ => []
/-- `$k` of this type: `yystack_[…].value.as<T>()` (autogen_copy/asn_compiler.hpp:8018-9620). -/
def asAssignment : Val → Assignment | assignment a => a | _ => { name := "", body := .type (.leaf .any) }
/-- `$k` of this type: `yystack_[…].value.as<T>()` (autogen_copy/asn_compiler.hpp:8018-9620). -/
def asAssignments : Val → List Assignment | assignments as => as | _ => []
/-- `$k` of this type: `yystack_[…].value.as<T>()` (autogen_copy/asn_compiler.hpp:8018-9620). -/
def asParam : Val → Param | param p => p | _ => ⟨Option.none, ""⟩
/-- `$k` of this type: `yystack_[…].value.as<T>()` (autogen_copy/asn_compiler.hpp:8018-9620). -/
def asParams : Val → List Param | params ps => ps | _ => []
/-- `$k` of this type: `yystack_[…].value.as<T>()` (autogen_copy/asn_compiler.hpp:8018-9620). -/
def asImport : Val → Import | import_ i => i | _ => { module := "", types := [] }
/-- `$k` of this type: `yystack_[…].value.as<T>()` (autogen_copy/asn_compiler.hpp:8018-9620). -/
def asImports : Val → List Import | imports is => is | _ => []
/-- `$k` of this type: `yystack_[…].value.as<T>()` (autogen_copy/asn_compiler.hpp:8018-9620). -/
def asOid : Val → Option Name × Option Int | oid n v => (n, v) | _ => (Option.none, Option.none)
/-- `$k` of this type: `yystack_[…].value.as<T>()` (autogen_copy/asn_compiler.hpp:8018-9620). -/
def asOids : Val → List (Option Name × Option Int) | oids vs => vs | _ => []
/-- `$k` of this type: `yystack_[…].value.as<T>()` (autogen_copy/asn_compiler.hpp:8018-9620). -/
def asModule : Val → List Import × List Assignment | module_ is as => (is, as) | _ => ([], [])

end Val

/-- What the actions change: `context_.asn1_tree.modules` (asn_compiler.yacc:343) and the counter of `gen_anon_member_name`
(CompilerTypes.cpp:325-329). -/
structure St where
  modules : List Module
  anon : Nat

/-- The action of a rule: from `$1`, `$2`, ... to `$$`.  (autogen_copy/asn_compiler.hpp:8018-9620) -/
abbrev Act := List Val → St → Val × St

/-- `$k`.  (autogen_copy/asn_compiler.hpp:8018-9620) -/
def arg (v : List Val) (k : Nat) : Val := v.getD (k - 1) .none

/-- An action that changes nothing but `$$`.  (autogen_copy/asn_compiler.hpp:8018-9620) -/
def sets (f : List Val → Val) : Act := fun v st => (f v, st)

/-- `gen_anon_member_name` (CompilerTypes.cpp:325-329). -/
def anonName (st : St) : Name := "anonymous_member_" ++ toString st.anon

/-- The actions of unnamed components (asn_compiler.yacc:1260-1268). -/
def anonComp (optional : Bool) (default : List Val → Option Value) : Act := fun v st =>
  (.comp (.mk (anonName st) (arg v 1).asType optional (default v) Option.none .static_), { st with anon := st.anon + 1 })

/-- `std::isupper(ref[0])` in the "C" locale (asn_compiler.yacc:840); `ref` is not empty. -/
def startsUpper (s : Name) : Bool :=
  match s.toList with
  | [] => false
  | c :: _ => 'A' ≤ c && c ≤ 'Z'

/-- `SymbolsFromModule` (asn_compiler.yacc:835-850). -/
def importOf (module : Name) (refs : List Name) : Import :=
  { module := module, types := refs.filter startsUpper, values := refs.filter fun r => !startsUpper r }

/-- `ClassNumber: number { $$ = $1; }` (asn_compiler.yacc:1352-1354): an `int64_t` assigned to an `int`. -/
def wrap32 (i : Int) : Int := (i + 2 ^ 31) % 2 ^ 32 - 2 ^ 31

/-- `TaggedType{tag, mode, type}` (asn_compiler.yacc:1336-1342).  `tag_number` is an `int`, here a natural number: negative tag numbers
(`[4294967295]` and the like, see `wrap32`) become 0. -/
def tagged (t : Cls × Int) (mode : TagMode) (type : AType) : Val := .type (.prefixed t.1 t.2.toNat mode type)

end FastBer.Parser
