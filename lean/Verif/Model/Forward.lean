import Verif.Model.Emit
import Verif.Model.Recursive
/-!
# The generated C++ with forward declarations

`Decl.run` (Model/Cpp) requires every name to be declared before its use.  The compiler also writes a file of forward declarations
`struct X;` for all type assignments of all modules, which the output includes first (CompilerMain.cpp:32-35, 113-149, 181-205).  So a
reference `::fast_ber::m::X` to a type that is not defined yet names an incomplete type, which is completed later; this is how circular
schemas are translated (ReorderAssignments.cpp:158-215).  Here such a reference stays a reference: the meaning of a C++ type is an
`RTy` (Model/Recursive) whose references are `Key`s, and the output as a whole is a program of named types (`program`).

Everything else is as in Model/Cpp and Model/Emit, with `RTy Key` for `Ty`.  Simplifications in addition to the ones there: where C++ requires a
complete type is only checked for the base class of `FAST_BER_ALIAS` (Alias.hpp:3-17), not for components (the compiler gives components that
need it dynamic storage, see Model/Reorder); the class a DEFAULT belongs to must not contain forward references.
-/
namespace FastBer.Ast.Fwd

/-- A named type: type `ref` of module `mod`, with its own identifier or with the one in `encode_with_id<id>`/`decode_with_id<id>`.  (Not code of the repository: the meaning in C++ of what CompilerMain.cpp:32-35, 118-205, TypeAsString.cpp:21-489 and GenerateChoice.cpp:8-164 write.) -/
structure Key where
  mod : Name
  ref : Name
  id : Option CId

/-- What a name stands for.  (Not code of the repository: the meaning in C++ of what CompilerMain.cpp:32-35, 118-205, TypeAsString.cpp:21-489 and GenerateChoice.cpp:8-164 write.) -/
inductive Ent where
  | enum
  | type (t : RTy Key)

/-- What has been defined so far; see `Ast.Env`.  (Not code of the repository: the meaning in C++ of what CompilerMain.cpp:32-35, 118-205, TypeAsString.cpp:21-489 and GenerateChoice.cpp:8-164 write.) -/
structure Env where
  spaces : List ((Name × Name) × Ent)
  scopes : List (List (Name × Ent))

/-- Unqualified name lookup; see `Ast.Env.find`.  (The compiler writes no unqualified name of a forward declared type.).  (Not code of the repository: the meaning in C++ of what CompilerMain.cpp:32-35, 118-205, TypeAsString.cpp:21-489 and GenerateChoice.cpp:8-164 write.) -/
def Env.find (env : Env) (here n : Name) : Option Ent :=
  match env.scopes.findSome? (fun s => s.lookup n) with
  | some e => some e
  | none => env.spaces.lookup (here, n)

/-- A name that must stand for a type.  (Not code of the repository: the meaning in C++ of what CompilerMain.cpp:32-35, 118-205, TypeAsString.cpp:21-489 and GenerateChoice.cpp:8-164 write.) -/
def needType : Option Ent → Res (RTy Key)
  | some (.type t) => .ok t
  | _ => .throw .cpp

/-- A name that must stand for an enumeration.  (Not code of the repository: the meaning in C++ of what CompilerMain.cpp:32-35, 118-205, TypeAsString.cpp:21-489 and GenerateChoice.cpp:8-164 write.) -/
def needEnum : Option Ent → Res Unit
  | some .enum => .ok ()
  | _ => .throw .cpp

/-- `struct ref;` is written for module `m` (`create_fwd_declarations`, CompilerMain.cpp:113-130; `create_type_fwd`, 32-35). -/
def declared (tree : Tree) (m ref : Name) : Bool :=
  tree.modules.any fun md => md.name == m && md.assignments.any fun a => a.name == ref && match a.body with
    | .type _ => true
    | _ => false

/-- `::fast_ber::m::ref`: the definition, if it has been seen, else the forward declaration.  (Not code of the repository: the meaning in C++ of what CompilerMain.cpp:32-35, 118-205, TypeAsString.cpp:21-489 and GenerateChoice.cpp:8-164 write.) -/
def qualified (tree : Tree) (env : Env) (m ref : Name) : Res (RTy Key) :=
  match env.spaces.lookup (m, ref) with
  | some e => needType (some e)
  | none => if declared tree m ref then .ok (.ref ⟨m, ref, none⟩) else .throw .cpp

/-- Meaning of a type as written; see `CppTy.denote`.  (Not code of the repository: the meaning in C++ of what CompilerMain.cpp:32-35, 118-205, TypeAsString.cpp:21-489 and GenerateChoice.cpp:8-164 write.) -/
def denote (lib : Lib) (tree : Tree) (here : Name) (env : Env) : CppTy → Res (RTy Key)
  | .lib k id => do
    let l ← need (lib.leaf k)
    let i ← need id.ident
    .ok (.leaf l i)
  | .enumerated values id => do
    needEnum (env.find here values)
    let i ← need id.ident
    .ok (.leaf .enum i)
  | .seqOf contained id => do
    let t ← needType (env.find here contained)
    let i ← need id.ident
    .ok (.seqOf i t)
  | .named n => needType (env.find here n)
  | .qualified m ref => qualified tree env m ref

/-- A new name in the current scope; see `Ast.Env.declare`.  (Not code of the repository: the meaning in C++ of what CompilerMain.cpp:32-35, 118-205, TypeAsString.cpp:21-489 and GenerateChoice.cpp:8-164 write.) -/
def Env.declare (env : Env) (here n : Name) (e : Ent) : Res Env :=
  match env.scopes with
  | [] =>
    match env.spaces.lookup (here, n) with
    | some _ => .throw .cpp
    | none => .ok { env with spaces := ((here, n), e) :: env.spaces }
  | s :: ss =>
    match s.lookup n with
    | some _ => .throw .cpp
    | none => .ok { env with scopes := ((n, e) :: s) :: ss }

/-- `encode_with_id<id>` and so on; see `Ty.withId`.  The functions are defined in the `.detail.hpp` file, after all types. -/
def withId (id : CId) : RTy Key → Res (RTy Key)
  | .seq _ fs => do
    let i ← need id.ident
    .ok (.seq i fs)
  | .set _ ext fs => do
    let i ← need id.ident
    .ok (.set i ext fs)
  | .choice _ as => .ok (.choice id.choiceIdent as)
  | .ref k => .ok (.ref { k with id := some id })
  | .leaf _ _ => .throw .cpp
  | .seqOf _ _ => .throw .cpp

/-- The codec a member function call of `make_component_function` uses.  (EncodeDecode.cpp:14-24) -/
def memberTy (t : RTy Key) : Option CId → Res (RTy Key)
  | none => .ok t
  | some id => withId id t

mutual
/-- A type without forward references, as a `Ty`.  (Not code: conversion between the two models of types, see Model/Recursive.) -/
def closed? : RTy Key → Option Ty
  | .leaf k id => some (.leaf k id)
  | .seqOf id t =>
    match closed? t with
    | some t' => some (.seqOf id t')
    | none => none
  | .seq id fs =>
    match closedFields? fs with
    | some fs' => some (.seq id fs')
    | none => none
  | .set id ext fs =>
    match closedFields? fs with
    | some fs' => some (.set id ext fs')
    | none => none
  | .choice id as =>
    match closedAlts? as with
    | some as' => some (.choice id as')
    | none => none
  | .ref _ => none
/-- The same for components.  Not code: conversion between the two models of types. -/
def closedFields? : RFields Key → Option Fields
  | .nil => some .nil
  | .cons k ls t rest =>
    match closed? t, closedFields? rest with
    | some t', some rest' => some (.cons k ls t' rest')
    | _, _ => none
/-- The same for alternatives.  Not code: conversion between the two models of types. -/
def closedAlts? : RAlts Key → Option Alts
  | .nil => some .nil
  | .cons ls t rest =>
    match closed? t, closedAlts? rest with
    | some t', some rest' => some (.cons ls t' rest')
    | _, _ => none
end

/-- The `kind` of a member; see `Ast.memberKind`.  (Not code of the repository: the meaning in C++ of what CompilerMain.cpp:32-35, 118-205, TypeAsString.cpp:21-489 and GenerateChoice.cpp:8-164 write.) -/
def memberKind (lib : Lib) (t : RTy Key) (optional : Bool) (default : Option Value) : Res Kind :=
  if optional then .ok .optional
  else match default with
    | some v => do
      let t' ← need (closed? t)
      let d ← need (lib.default t' v)
      .ok (.default d)
    | none => .ok .mandatory

/-- The members of a struct; see `Ast.runMembers`.  (Not code of the repository: the meaning in C++ of what CompilerMain.cpp:32-35, 118-205, TypeAsString.cpp:21-489 and GenerateChoice.cpp:8-164 write.) -/
def runMembers (lib : Lib) (here : Name) (env : Env) : List Member → Res (RFields Key)
  | [] => .ok .nil
  | m :: ms => do
    let t ← needType (env.find here m.type)
    let t' ← memberTy t m.withId
    let k ← memberKind lib t' m.optional m.default
    let rest ← runMembers lib here env ms
    .ok (.cons k (m.labels.map TagId.id) t' rest)

/-- The alternatives of a CHOICE; see `Ast.runAlts`.  (Not code of the repository: the meaning in C++ of what CompilerMain.cpp:32-35, 118-205, TypeAsString.cpp:21-489 and GenerateChoice.cpp:8-164 write.) -/
def runAlts (here : Name) (env : Env) : List AltMember → Res (RAlts Key)
  | [] => .ok .nil
  | m :: ms => do
    let t ← needType (env.find here m.type)
    let t' ← memberTy t m.withId
    let rest ← runAlts here env ms
    .ok (.cons (m.labels.map TagId.id) t' rest)

/-- See `Ast.checkStruct`.  (Not code of the repository: the meaning in C++ of what CompilerMain.cpp:32-35, 118-205, TypeAsString.cpp:21-489 and GenerateChoice.cpp:8-164 write.) -/
def checkStruct (n : Name) (path : Option Name) (scope : List (Name × Ent)) : Res Unit :=
  if path = some n ∧ (scope.lookup n).isNone then .ok () else .throw .cpp

/-- The names declared in the innermost struct.  (Not code of the repository: the meaning in C++ of what CompilerMain.cpp:32-35, 118-205, TypeAsString.cpp:21-489 and GenerateChoice.cpp:8-164 write.) -/
def Env.top (env : Env) : List (Name × Ent) := env.scopes.headD []

mutual
/-- Meaning of a declaration; see `Decl.run`.  (Not code of the repository: the meaning in C++ of what CompilerMain.cpp:32-35, 118-205, TypeAsString.cpp:21-489 and GenerateChoice.cpp:8-164 write.) -/
def run (lib : Lib) (tree : Tree) (here : Name) (env : Env) : Decl → Res Env
  | .enum n => env.declare here n .enum
  | .usingEnum n m => do
    needEnum (env.spaces.lookup (m, n))
    env.declare here n .enum
  | .type n t => do
    let T ← denote lib tree here env t
    env.declare here n (.type T)
  | .coll n path isSet ext inner ms id => do
    let env' ← runAll lib tree here { env with scopes := [] :: env.scopes } inner
    checkStruct n path env'.top
    let fs ← runMembers lib here env' ms
    let i ← need id.ident
    if isSet then do
      distinctLabels (ms.flatMap fun m => m.labels.map TagId.id)
      env.declare here n (.type (.set i ext fs))
    else env.declare here n (.type (.seq i fs))
  | .choice n path inner ms id => do
    let env' ← runAll lib tree here { env with scopes := [] :: env.scopes } inner
    checkStruct n path env'.top
    let as ← runAlts here env' ms
    distinctLabels (ms.flatMap fun m => m.labels.map TagId.id)
    env.declare here n (.type (.choice id.choiceIdent as))
/-- Declarations one after the other.  (Not code of the repository: the meaning in C++ of what CompilerMain.cpp:32-35, 118-205, TypeAsString.cpp:21-489 and GenerateChoice.cpp:8-164 write.) -/
def runAll (lib : Lib) (tree : Tree) (here : Name) (env : Env) : List Decl → Res Env
  | [] => .ok env
  | d :: ds => do
    let env' ← run lib tree here env d
    runAll lib tree here env' ds
end

/-- A base class must be complete: `FAST_BER_ALIAS(X, Y)` for `X ::= Y` (Alias.hpp:3-4; TypeAsString.cpp:473-477). -/
def checkBase : Option Ent → Res Unit
  | some (.type (.ref _)) => .throw .cpp
  | _ => .ok ()

/-- `create_body` of a module (CompilerMain.cpp:100-112) and what a C++ compiler makes of it. -/
def runBody (lib : Lib) (tree : Tree) (fuel : Nat) (mod : Module) (env : Env) : List Assignment → Res Env
  | [] => .ok env
  | a :: as => do
    let ds ← createAssignment tree fuel mod a
    let env' ← runAll lib tree mod.name env ds
    checkBase (env'.spaces.lookup (mod.name, a.name))
    runBody lib tree fuel mod env' as

/-- `create_output_file` (CompilerMain.cpp:181-205), module by module. -/
def runModules (lib : Lib) (tree : Tree) (fuel : Nat) (env : Env) : List Module → Res Env
  | [] => .ok env
  | m :: ms => do
    let env' ← runBody lib tree fuel m env m.assignments
    runModules lib tree fuel env' ms

/-- The C++ types the output of the compiler defines.  (CompilerMain.cpp:104-116, 118-149, 183-205, and their meaning in C++) -/
def generate (lib : Lib) (fuel : Nat) (tree : Tree) : Res Env := runModules lib tree fuel ⟨[], []⟩ tree.modules

/-- The C++ type for type `ref` of module `mod`.  (CompilerMain.cpp:104-116, 118-149, 183-205, and their meaning in C++) -/
def Env.typeOf (env : Env) (mod ref : Name) : Option (RTy Key) :=
  match env.spaces.lookup (mod, ref) with
  | some (.type t) => some t
  | _ => none

/-- The numbers of an identifier fit `Tag` (`std::int64_t`, BerLengthAndType.hpp), and it is not that of an untagged CHOICE. -/
def fits : CId → Bool
  | .single i => 0 ≤ i.num && i.num < 2 ^ 63
  | .double o i => (0 ≤ o.num && o.num < 2 ^ 63) && (0 ≤ i.num && i.num < 2 ^ 63)
  | .choice _ => false

/-- Stands for keys no type of the output refers to.  (CompilerMain.cpp:104-116, 118-149, 183-205, and their meaning in C++) -/
def unused : RTy Key := .leaf .null (.single ⟨.universal, 5⟩)

/-- The named types of the output.  Keys that the output does not use are given a NULL type, to make the function total.  (CompilerMain.cpp:104-116, 118-149, 183-205, and their meaning in C++) -/
def Env.program (env : Env) : REnv Key := fun k =>
  match env.typeOf k.mod k.ref, k.id with
  | none, _ => unused
  | some (.ref _), _ => unused
  | some t, none => t
  | some t, some id =>
    match withId id t with
    | .ok t' => if fits id then t' else unused
    | _ => unused

end FastBer.Ast.Fwd
