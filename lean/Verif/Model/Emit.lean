import Verif.Model.Cpp
/-!
# From ASN.1 types to C++ declarations

Models `src/compiler/TypeAsString.cpp`, the type part of `create_choice_definition` (GenerateChoice.cpp:8-47), `make_component_function` and
the identifiers written by `create_*_decode_functions` (EncodeDecode.cpp:14-24, 180-520), `visit_all_types` (Visit.hpp) as far as
it decides the names of the functions, and `create_output_file` (CompilerMain.cpp:181-205).

`fuel` bounds the length of chains of references as in `Model/Resolve.lean`.  Not modelled: value assignments, `DefaultValue…` structs
(see `Lib.default`), the helper functions.
-/
namespace FastBer.Ast

/-- `make_type_name` (CppGeneration.cpp:65-75); without a parent the second argument is empty. -/
def makeTypeName (name : Name) (parent : Name := "") : Name :=
  let n := match name.toList with
    | [] => name
    | c :: cs => String.ofList (c.toUpper :: cs)
  if n = parent then n ++ "_" else n

/-- `is_generated` (CompilerTypes.cpp:316-323). -/
def AType.isGenerated : AType → Bool
  | .sequence _ _ => true
  | .set _ _ => true
  | .choice _ _ => true
  | .prefixed _ _ _ t => t.isGenerated
  | _ => false

/-- `type_as_string` (TypeAsString.cpp:110-387) with a non-empty `identifier_override`, as all callers outside of it pass.  `SET OF` is
handled as `SEQUENCE OF` (319-323). -/
def typeAsString (tree : Tree) (mod : Module) : Nat → Name → CId → AType → Res CppTy
  | 0, _, _, _ => .loop
  | fuel + 1, name, id, t =>
    match t with
    | .leaf .enumerated => .ok (.enumerated (name ++ "Values") id)
    | .leaf k => .ok (.lib k id)
    | .choice _ _ => .ok (.named name)
    | .sequence _ _ => .ok (.named name)
    | .set _ _ => .ok (.named name)
    | .seqOf _ _ _ => .ok (.seqOf (name ++ "Contained") id)
    | .setOf _ _ _ => .ok (.seqOf (name ++ "Contained") id)
    | .prefixed c n k t' => do
      let _ ← identifier tree fuel mod (.prefixed c n k t')
      typeAsString tree mod fuel "" id t'
    | .objField _ _ _ => .throw .other
    | .defined m ref _ => do
      let r ← resolveDefined tree mod.name fuel mod.name m ref
      if r.type.isGenerated then .ok (.qualified (m.getD mod.name) ref)
      else typeAsString tree mod fuel ref id r.type

/-- `identifier_override.empty() ? identifier(…).name() : identifier_override` (TypeAsString.cpp:93, 446-450, 457-461;
GenerateChoice.cpp:22). -/
def overrideOr (tree : Tree) (fuel : Nat) (mod : Module) (t : AType) : Option CId → Res CId
  | some id => .ok id
  | none => do
    let i ← identifier tree fuel mod t
    .ok i.cid

/-- `make_component_function` (EncodeDecode.cpp:14-24): the identifier in `…_with_id<…>`, if any. -/
def componentFunction (tree : Tree) (fuel : Nat) (mod : Module) (name : Name) (t : AType) : Res (Option CId) := do
  let r ← resolveType tree mod.name fuel name t
  if r.type.isGenerated then do
    let i ← identifier tree fuel mod t
    if i.isDefault then .ok none else .ok (some i.cid)
  else .ok none

/-- The identifier given to component or alternative `i` (TypeAsString.cpp:50-67; GenerateChoice.cpp:30-46). -/
def autoOverride (mod : Module) (i : Nat) : Option CId :=
  if mod.tagging = .automatic then some (.single (.ofTag .contextSpecific i)) else none

/-- `using XValues = …` for a reference to an ENUMERATED of another module (TypeAsString.cpp:463-472). -/
def enumImport (tree : Tree) (fuel : Nat) (mod : Module) : AType → Res (List Decl)
  | .defined m ref _ => do
    let r ← resolveDefined tree mod.name fuel mod.name m ref
    match r.type with
    | .leaf .enumerated => .ok (if r.module.name = mod.name then [] else [.usingEnum (ref ++ "Values") r.module.name])
    | _ => .ok []
  | _ => .ok []

/-- The last part of `create_type_assignment` for types that are neither generated nor tagged (TypeAsString.cpp:455-481). -/
def createAlias (tree : Tree) (fuel : Nat) (mod : Module) (name : Name) (override : Option CId) (t : AType) : Res (List Decl) := do
  let id ← overrideOr tree fuel mod t override
  let pre ← enumImport tree fuel mod t
  let c ← typeAsString tree mod fuel name id t
  .ok (pre ++ [.type name c])

/-- The identifiers that lead the generated SEQUENCE/SET decoder to component `i`.  SET: `case` labels, the position in a module with
automatic tags (EncodeDecode.cpp:222-252), else `outer_identifiers` (255-313).  SEQUENCE: only OPTIONAL and DEFAULT components are looked
for, always by `outer_identifiers` (359-368). -/
def componentLabels (tree : Tree) (fuel : Nat) (mod : Module) (isSet : Bool) (i : Nat) (c : Comp) : Res (List TagId) :=
  if isSet then
    if mod.tagging = .automatic then .ok [.ofTag .contextSpecific i]
    else outerIds tree fuel mod c.type
  else if c.optional || c.default.isSome then outerIds tree fuel mod c.type
  else .ok []

/-- The `case` labels of alternative `i` (EncodeDecode.cpp:467-512). -/
def alternativeLabels (tree : Tree) (fuel : Nat) (mod : Module) (i : Nat) (t : AType) : Res (List TagId) :=
  if mod.tagging = .automatic then .ok [.ofTag .contextSpecific i] else outerIds tree fuel mod t

/-- The members of a SEQUENCE or SET called `parent`, from position `i` on.  (TypeAsString.cpp:21-109) -/
def createMembers (tree : Tree) (fuel : Nat) (mod : Module) (isSet : Bool) (parent : Name) : Nat → List Comp → Res (List Member)
  | _, [] => .ok []
  | i, c :: cs => do
    let w ← componentFunction tree fuel mod c.name c.type
    let ls ← componentLabels tree fuel mod isSet i c
    let rest ← createMembers tree fuel mod isSet parent (i + 1) cs
    .ok (⟨makeTypeName c.name parent, c.optional, c.default, w, ls⟩ :: rest)

/-- The alternatives of a CHOICE, from position `i` on.  (GenerateChoice.cpp:8-47) -/
def createAlternatives (tree : Tree) (fuel : Nat) (mod : Module) : Nat → List Named → Res (List AltMember)
  | _, [] => .ok []
  | i, a :: as => do
    let w ← componentFunction tree fuel mod a.name a.type
    let ls ← alternativeLabels tree fuel mod i a.type
    let rest ← createAlternatives tree fuel mod (i + 1) as
    .ok (⟨makeTypeName a.name, w, ls⟩ :: rest)

/-- `check_valid` (TypeAsString.cpp:428, 434). -/
def checkValid (tree : Tree) (fuel : Nat) (mod : Module) (isSet : Bool) (cs : List Comp) : Res Unit :=
  if isSet then checkSet tree fuel mod cs else checkSequence tree fuel mod cs

mutual
/-- `create_type_assignment` (TypeAsString.cpp:390-483), with `create_collection_definition` (20-108) and `create_choice_definition`
(GenerateChoice.cpp:8-47) in place.  `path`: see `Decl`. -/
def createType (tree : Tree) (fuel : Nat) (mod : Module) : AType → Name → Option Name → Option CId → Res (List Decl)
  | .leaf k, name, _, override => do
    let ds ← createAlias tree fuel mod name override (.leaf k)
    .ok (if k = .enumerated then .enum (name ++ "Values") :: ds else ds)
  | .setOf n t s, name, _, override => do
    let ds ← createType tree fuel mod t (name ++ "Contained") (n.map makeTypeName) none
    let es ← createAlias tree fuel mod name override (.setOf n t s)
    .ok (ds ++ es)
  | .seqOf n t s, name, _, override => do
    let ds ← createType tree fuel mod t (name ++ "Contained") (n.map makeTypeName) none
    let es ← createAlias tree fuel mod name override (.seqOf n t s)
    .ok (ds ++ es)
  | .set cs ext, name, path, override => do
    checkValid tree fuel mod true cs
    let inner ← createComponents tree fuel mod name 0 cs
    let ms ← createMembers tree fuel mod true name 0 cs
    let id ← overrideOr tree fuel mod (.set cs ext) override
    .ok [.coll name path true ext inner ms id]
  | .sequence cs ext, name, path, override => do
    checkValid tree fuel mod false cs
    let inner ← createComponents tree fuel mod name 0 cs
    let ms ← createMembers tree fuel mod false name 0 cs
    let id ← overrideOr tree fuel mod (.sequence cs ext) override
    .ok [.coll name path false ext inner ms id]
  | .choice as s, name, path, override => do
    let id ← overrideOr tree fuel mod (.choice as s) override
    let inner ← createChoices tree fuel mod 0 as
    let ms ← createAlternatives tree fuel mod 0 as
    .ok [.choice name path inner ms id]
  | .prefixed c n k t, name, path, override => do
    let id ← overrideOr tree fuel mod (.prefixed c n k t) override
    createType tree fuel mod t name path (some id)
  | .objField m c fs, name, _, override => createAlias tree fuel mod name override (.objField m c fs)
  | .defined m ref ps, name, _, override => createAlias tree fuel mod name override (.defined m ref ps)
/-- "Define child types" of a SEQUENCE or SET called `parent` (TypeAsString.cpp:49-67), from position `i` on. -/
def createComponents (tree : Tree) (fuel : Nat) (mod : Module) (parent : Name) : Nat → List Comp → Res (List Decl)
  | _, [] => .ok []
  | i, .mk n t _ _ _ _ :: cs => do
    let ds ← createType tree fuel mod t (makeTypeName n parent) (some (makeTypeName n)) (autoOverride mod i)
    let es ← createComponents tree fuel mod parent (i + 1) cs
    .ok (ds ++ es)
/-- The alternatives of a CHOICE (GenerateChoice.cpp:29-46), from position `i` on. -/
def createChoices (tree : Tree) (fuel : Nat) (mod : Module) : Nat → List Named → Res (List Decl)
  | _, [] => .ok []
  | i, .mk n t :: as => do
    let ds ← createType tree fuel mod t (makeTypeName n) (some (makeTypeName n)) (autoOverride mod i)
    let es ← createChoices tree fuel mod (i + 1) as
    .ok (ds ++ es)
end

/-- `create_assignment` (CompilerMain.cpp:38-77) for a type assignment. -/
def createAssignment (tree : Tree) (fuel : Nat) (mod : Module) (a : Assignment) : Res (List Decl) :=
  match a.body with
  | .type t => createType tree fuel mod t a.name (some a.name) none
  | .value _ _ => .ok []
  | .objectClass _ => .throw .other
  | .objectSet => .ok []

/-- `create_body` of a module (CompilerMain.cpp:100-112) and what a C++ compiler makes of it. -/
def runBody (lib : Lib) (tree : Tree) (fuel : Nat) (mod : Module) (env : Env) : List Assignment → Res Env
  | [] => .ok env
  | a :: as => do
    let ds ← createAssignment tree fuel mod a
    let env' ← Decl.runAll lib mod.name env ds
    runBody lib tree fuel mod env' as

/-- `create_output_file` (CompilerMain.cpp:181-205), module by module. -/
def runModules (lib : Lib) (tree : Tree) (fuel : Nat) (env : Env) : List Module → Res Env
  | [] => .ok env
  | m :: ms => do
    let env' ← runBody lib tree fuel m env m.assignments
    runModules lib tree fuel env' ms

/-- The C++ types the output of the compiler defines.  (CompilerMain.cpp:104-116, 183-205, and their meaning in C++) -/
def generate (lib : Lib) (fuel : Nat) (tree : Tree) : Res Env := runModules lib tree fuel ⟨[], []⟩ tree.modules

/-- The C++ type for type `ref` of module `mod`.  (Not code: `::fast_ber::mod::ref` as the user of the generated header writes it, CompilerMain.cpp:104-116.) -/
def Env.typeOf (env : Env) (mod ref : Name) : Option Ty :=
  match env.spaces.lookup (mod, ref) with
  | some (.type t) => some t
  | _ => none

end FastBer.Ast
