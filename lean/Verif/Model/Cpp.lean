import Verif.Model.Schema
import Verif.Model.Identifier
/-!
# The C++ declarations the compiler writes, and what they mean

`Decl` is the abstract syntax of the declarations `create_type_assignment` emits (TypeAsString.cpp, GenerateChoice.cpp)
together with what `create_encode_functions`/`create_decode_functions` (EncodeDecode.cpp) emit about the members of the same struct.
`Decl.run` is what a C++ compiler makes of them: names are looked up in the enclosing scopes from the inside out, a name
must be declared before its use and only once per scope.  The meaning of a C++ type is a `Ty` (`Model/Schema.lean`).

Simplifications: `using X = T` and `FAST_BER_ALIAS(X, T)` (a struct that inherits everything from `T`) are the same; the
forward declarations `struct X;` of the `.fwd.hpp` file are ignored, so that recursive types are rejected here (Model/Forward has them); the injected
class name of a struct is not visible inside it; names of the library (`SequenceOf`, `Default`, …) are never captured.
Storage modes do not change the meaning of a type and are dropped.
-/
namespace FastBer.Ast

/-- An identifier as a template argument: `TaggingInfo::name()` (CompilerTypes.hpp:641-667). -/
inductive CId where
  | single (i : TagId)
  | double (outer inner : TagId)
  | choice (ids : List TagId)

/-- `TaggingInfo::name()` (CompilerTypes.hpp:641-667). -/
def TagInfo.cid (i : TagInfo) : CId :=
  match i.outer with
  | some o => .double o i.inner
  | none => if i.choiceIds.length > 0 then .choice i.choiceIds else .single i.inner

/-- The classes of compiler and library have the same names (CompilerTypes.hpp:29-35; Class.hpp:9-15). -/
def Cls.toClass : Cls → Class
  | .universal => .universal
  | .application => .application
  | .contextSpecific => .contextSpecific
  | .private_ => .private_

/-- `Identifier::name()` (CompilerTypes.hpp:612-622): `Id<class, number>` or `ExplicitId<UniversalTag::…>`, which is the same
type (Identifier.hpp:77-79). -/
def TagId.id (i : TagId) : Id := ⟨i.cls.toClass, i.num⟩

/-- `Id<…>` or `DoubleId<…>` (Identifier.hpp:30-52). -/
def CId.ident : CId → Option Ident
  | .single i => some (.single i.id)
  | .double o i => some (.double o.id i.id)
  | .choice _ => none

/-- The identifier argument of a generated CHOICE: `ChoiceId<…>` means untagged (`IsChoiceId`, Choice.hpp:56-64). -/
def CId.choiceIdent : CId → ChoiceIdent
  | .single i => .tagged (.single i.id)
  | .double o i => .tagged (.double o.id i.id)
  | .choice ids => .untagged (ids.map TagId.id)

/-- A type as written in C++.  (what `type_as_string` writes, TypeAsString.cpp:112-389) -/
inductive CppTy where
  /-- `::fast_ber::Integer<id>` and so on -/
  | lib (k : Builtin) (id : CId)
  /-- `::fast_ber::Enumerated<values, id>` -/
  | enumerated (values : Name) (id : CId)
  /-- `SequenceOf<contained, id, storage>` -/
  | seqOf (contained : Name) (id : CId)
  /-- a name -/
  | named (n : Name)
  /-- `::fast_ber::mod::ref` -/
  | qualified (mod ref : Name)

/-- A member of a generated SEQUENCE or SET: the name of its type, `Optional<…>`/`Default<…>` (TypeAsString.cpp:71-88), the
identifier in `encode_with_id<…>` if `make_component_function` writes one (EncodeDecode.cpp:14-24), the identifiers in the
generated `decode_with_id` (EncodeDecode.cpp:222-313, 363-368). -/
structure Member where
  type : Name
  optional : Bool
  default : Option Value
  withId : Option CId
  labels : List TagId

/-- An alternative of a generated CHOICE (GenerateChoice.cpp:15-24; EncodeDecode.cpp:467-512). -/
structure AltMember where
  type : Name
  withId : Option CId
  labels : List TagId

/-- A declaration.  `path` of a struct is the name under which the functions of `EncodeDecode.cpp` are defined
(`visit_all_types`, Visit.hpp:5-66; `none` if they are not defined at all). -/
inductive Decl where
  | enum (n : Name)
  /-- `using n = ::fast_ber::mod::n` for the values of an ENUMERATED of another module -/
  | usingEnum (n mod : Name)
  | type (n : Name) (t : CppTy)
  | coll (n : Name) (path : Option Name) (isSet ext : Bool) (inner : List Decl) (members : List Member) (id : CId)
  | choice (n : Name) (path : Option Name) (inner : List Decl) (alts : List AltMember) (id : CId)

/-- What a name stands for.  (Not code of the repository: the meaning in C++ of what TypeAsString.cpp:21-489, GenerateChoice.cpp:8-164 and EncodeDecode.cpp:14-520 write.) -/
inductive Ent where
  | enum
  | type (t : Ty)

/-- What has been declared so far: in the namespaces `::fast_ber::…`, and in the structs around this point, innermost first.  (Not code of the repository: the meaning in C++ of what TypeAsString.cpp:21-489, GenerateChoice.cpp:8-164 and EncodeDecode.cpp:14-520 write.) -/
structure Env where
  spaces : List ((Name × Name) × Ent)
  scopes : List (List (Name × Ent))

/-- Parts of the library and of C++ the meaning of a type depends on and that are not modelled: the comparisons of REALs and times
(see `Leaf`), and the object `T(value)` in `Default<T, …>` (Default.hpp:20-38; `value_as_string`). -/
structure Lib where
  realCmp : Bytes → Bytes → Exec Bool
  timeCmp : Bytes → Bytes → Exec Bool
  default : Ty → Value → Option Obj

/-- The library template for a leaf type (TypeAsString.cpp:110-230, 328-341; ber_types/*.hpp).  `none`: there is no such template
(`External.hpp`, `EmbeddedPDV.hpp`, `RelativeOID.hpp`, `IRI.hpp` and `RelativeIRI.hpp` are empty, `InstanceOf` and `ObjectDescriptor` do not
exist), or it is not modelled (`Any`).  The character string types are all `StringImpl`, but `T61String` is written as
`fast_ber::T161String` (CompilerTypes.hpp:217), which does not exist. -/
def Lib.leaf (lib : Lib) : Builtin → Option Leaf
  | .boolean => some .bool
  | .integer => some .int
  | .null => some .null
  | .octetString => some .str
  | .bitString => some .str
  | .charString _ => some .str
  | .objectIdentifier => some .oid
  | .real => some (.real lib.realCmp)
  | .generalizedTime => some (.time lib.timeCmp)
  | .utcTime => some (.time lib.timeCmp)
  | .date => some (.time lib.timeCmp)
  | .dateTime => some (.time lib.timeCmp)
  | .duration => some (.time lib.timeCmp)
  | .time => some (.time lib.timeCmp)
  | .timeOfDay => some (.time lib.timeCmp)
  | .enumerated => none
  | .any => none
  | .embeddedPDV => none
  | .external => none
  | .instanceOf => none
  | .iri => none
  | .objectDescriptor => none
  | .relativeIRI => none
  | .relativeOID => none
  | .t61String => none

/-- A value that must be there for the C++ to compile.  (Not code of the repository: the meaning in C++ of what TypeAsString.cpp:21-489, GenerateChoice.cpp:8-164 and EncodeDecode.cpp:14-520 write.) -/
def need {α : Type} : Option α → Res α
  | some a => .ok a
  | none => .throw .cpp

/-- Unqualified name lookup in namespace `::fast_ber::here`: the scopes from the inside out, then the namespace.  (Not code of the repository: the meaning in C++ of what TypeAsString.cpp:21-489, GenerateChoice.cpp:8-164 and EncodeDecode.cpp:14-520 write.) -/
def Env.find (env : Env) (here n : Name) : Option Ent :=
  match env.scopes.findSome? (fun s => s.lookup n) with
  | some e => some e
  | none => env.spaces.lookup (here, n)

/-- A name that must stand for a type.  (Not code of the repository: the meaning in C++ of what TypeAsString.cpp:21-489, GenerateChoice.cpp:8-164 and EncodeDecode.cpp:14-520 write.) -/
def needType : Option Ent → Res Ty
  | some (.type t) => .ok t
  | _ => .throw .cpp

/-- A name that must stand for an enumeration.  (Not code of the repository: the meaning in C++ of what TypeAsString.cpp:21-489, GenerateChoice.cpp:8-164 and EncodeDecode.cpp:14-520 write.) -/
def needEnum : Option Ent → Res Unit
  | some .enum => .ok ()
  | _ => .throw .cpp

/-- Meaning of a type as written.  (Not code of the repository: the meaning in C++ of what TypeAsString.cpp:21-489, GenerateChoice.cpp:8-164 and EncodeDecode.cpp:14-520 write.) -/
def CppTy.denote (lib : Lib) (here : Name) (env : Env) : CppTy → Res Ty
  | .lib k id => do
    let l ← need (lib.leaf k)
    let i ← need id.ident
    .ok (.leaf l i)
  | .enumerated values id => do
    needEnum (env.find here values)
    let i ← need id.ident
    .ok (.leaf .enum i)
  | .seqOf contained id => do
    let t ← needType (env.find here contained)
    let i ← need id.ident
    .ok (.seqOf i t)
  | .named n => needType (env.find here n)
  | .qualified m ref => needType (env.spaces.lookup (m, ref))

/-- A new name in the current scope.  (Not code of the repository: the meaning in C++ of what TypeAsString.cpp:21-489, GenerateChoice.cpp:8-164 and EncodeDecode.cpp:14-520 write.) -/
def Env.declare (env : Env) (here n : Name) (e : Ent) : Res Env :=
  match env.scopes with
  | [] =>
    match env.spaces.lookup (here, n) with
    | some _ => .throw .cpp
    | none => .ok { env with spaces := ((here, n), e) :: env.spaces }
  | s :: ss =>
    match s.lookup n with
    | some _ => .throw .cpp
    | none => .ok { env with scopes := ((n, e) :: s) :: ss }

/-- `encode_with_id<id>`, `encoded_length_with_id<id>`, `decode_with_id<id>` (also of `Optional` and `Default`): the functions of the
type with another identifier.  Only generated types have them (TypeAsString.cpp:96-101; GenerateChoice.cpp). -/
def Ty.withId (id : CId) : Ty → Res Ty
  | .seq _ fs => do
    let i ← need id.ident
    .ok (.seq i fs)
  | .set _ ext fs => do
    let i ← need id.ident
    .ok (.set i ext fs)
  | .choice _ as => .ok (.choice id.choiceIdent as)
  | .leaf _ _ => .throw .cpp
  | .seqOf _ _ => .throw .cpp

/-- The codec a member function call of `make_component_function` uses.  (EncodeDecode.cpp:14-24) -/
def memberTy (t : Ty) : Option CId → Res Ty
  | none => .ok t
  | some id => Ty.withId id t

/-- The `kind` of a member: `is_optional` is looked at before `default_value` (TypeAsString.cpp:74-86). -/
def memberKind (lib : Lib) (t : Ty) (optional : Bool) (default : Option Value) : Res Kind :=
  if optional then .ok .optional
  else match default with
    | some v => do
      let d ← need (lib.default t v)
      .ok (.default d)
    | none => .ok .mandatory

/-- The members of a struct: `here` and `env` are those at the end of its inner declarations.  (Not code of the repository: the meaning in C++ of what TypeAsString.cpp:21-489, GenerateChoice.cpp:8-164 and EncodeDecode.cpp:14-520 write.) -/
def runMembers (lib : Lib) (here : Name) (env : Env) : List Member → Res Fields
  | [] => .ok .nil
  | m :: ms => do
    let t ← needType (env.find here m.type)
    let t' ← memberTy t m.withId
    let k ← memberKind lib t' m.optional m.default
    let rest ← runMembers lib here env ms
    .ok (.cons k (m.labels.map TagId.id) t' rest)

/-- The alternatives of a CHOICE.  (Not code of the repository: the meaning in C++ of what TypeAsString.cpp:21-489, GenerateChoice.cpp:8-164 and EncodeDecode.cpp:14-520 write.) -/
def runAlts (lib : Lib) (here : Name) (env : Env) : List AltMember → Res Alts
  | [] => .ok .nil
  | m :: ms => do
    let t ← needType (env.find here m.type)
    let t' ← memberTy t m.withId
    let rest ← runAlts lib here env ms
    .ok (.cons (m.labels.map TagId.id) t' rest)

/-- Two `case` labels of one `switch` must differ (the switches are per class, EncodeDecode.cpp:255-313, 478-512). -/
def distinctLabels (ls : List Id) : Res Unit := if ls.Nodup then .ok () else .throw .cpp

/-- A class may have no member type of its own name, and its functions must be defined under its own name.  (Not code of the repository: the meaning in C++ of what TypeAsString.cpp:21-489, GenerateChoice.cpp:8-164 and EncodeDecode.cpp:14-520 write.) -/
def checkStruct (n : Name) (path : Option Name) (scope : List (Name × Ent)) : Res Unit :=
  if path = some n ∧ (scope.lookup n).isNone then .ok () else .throw .cpp

/-- The names declared in the innermost struct.  (Not code of the repository: the meaning in C++ of what TypeAsString.cpp:21-489, GenerateChoice.cpp:8-164 and EncodeDecode.cpp:14-520 write.) -/
def Env.top (env : Env) : List (Name × Ent) := env.scopes.headD []

mutual
/-- Meaning of a declaration.  (Not code of the repository: the meaning in C++ of what TypeAsString.cpp:21-489, GenerateChoice.cpp:8-164 and EncodeDecode.cpp:14-520 write.) -/
def Decl.run (lib : Lib) (here : Name) (env : Env) : Decl → Res Env
  | .enum n => env.declare here n .enum
  | .usingEnum n m => do
    needEnum (env.spaces.lookup (m, n))
    env.declare here n .enum
  | .type n t => do
    let T ← t.denote lib here env
    env.declare here n (.type T)
  | .coll n path isSet ext inner ms id => do
    let env' ← Decl.runAll lib here { env with scopes := [] :: env.scopes } inner
    checkStruct n path env'.top
    let fs ← runMembers lib here env' ms
    let i ← need id.ident
    if isSet then do
      distinctLabels (ms.flatMap fun m => m.labels.map TagId.id)
      env.declare here n (.type (.set i ext fs))
    else env.declare here n (.type (.seq i fs))
  | .choice n path inner ms id => do
    let env' ← Decl.runAll lib here { env with scopes := [] :: env.scopes } inner
    checkStruct n path env'.top
    let as ← runAlts lib here env' ms
    distinctLabels (ms.flatMap fun m => m.labels.map TagId.id)
    env.declare here n (.type (.choice id.choiceIdent as))
/-- Declarations one after the other.  (Not code of the repository: the meaning in C++ of what TypeAsString.cpp:21-489, GenerateChoice.cpp:8-164 and EncodeDecode.cpp:14-520 write.) -/
def Decl.runAll (lib : Lib) (here : Name) (env : Env) : List Decl → Res Env
  | [] => .ok env
  | d :: ds => do
    let env' ← d.run lib here env
    Decl.runAll lib here env' ds
end

end FastBer.Ast
