import Verif.Model.Identifier
import Verif.Model.Names
import Verif.Spec.Constants
/-!
# The C++ constants written for value assignments and DEFAULTs

Models `src/compiler/ValueType.cpp`, `src/compiler/ValueAsString.cpp`, the parts of `create_assignment` and `create_imports` for values (src/compiler_main/CompilerMain.cpp:41-60, 79-100) and of
`create_collection_definition` for DEFAULTs (src/compiler/TypeAsString.cpp:29-43), and what the written declarations mean to a C++ compiler.  Assertions are not modelled (they are off in
release builds).
-/
namespace FastBer.Constants
open FastBer Ast

/-- The C++ type `value_type` writes.  (ValueType.cpp:15-232) -/
inductive CType where
  | int64 | bool | view | double | null
  /-- `nameValues` -/
  | values (name : Name)
  | oid
  /-- Classes of the library or the generated code. -/
  | other
  deriving DecidableEq

/-- `value_type` of a simple type (ValueType.cpp:15-125, 187-203). -/
def leafType (name : Name) : Builtin → CType
  | .integer => .int64
  | .boolean => .bool
  | .bitString => .view
  | .octetString => .view
  | .charString _ => .view
  | .t61String => .view
  | .real => .double
  | .null => .null
  | .enumerated => .values name
  | .objectIdentifier => .oid
  | _ => .other

/-- `value_type` (ValueType.cpp).  The tag written into the template argument (`identifier_override`) is left out, but computing it may fail (180). For a SET OF without a name the code
follows a null pointer (`set.named_type->name`, 160).  `fuel` bounds the chains of references. -/
def valueType (tree : Tree) (mod : Module) : Nat → AType → Name → Res CType
  | 0, _, _ => .loop
  | fuel + 1, t, name =>
    match t with
    | .leaf k => .ok (leafType name k)
    | .objField _ _ _ => .throw .other
    | .choice _ _ => .ok .other
    | .sequence _ _ => .ok .other
    | .set _ _ => .ok .other
    | .seqOf n t _ => do
      let _ ← valueType tree mod fuel t (n.getD "")
      .ok .other
    | .setOf none _ _ => .ub
    | .setOf (some n) t _ => do
      let _ ← valueType tree mod fuel t n
      .ok .other
    | .prefixed c n k t => do
      let _ ← identifier tree fuel mod (.prefixed c n k t)
      valueType tree mod fuel t ""
    | .defined m ref _ => do
      let r ← resolveDefined tree mod.name fuel mod.name m ref
      valueType tree mod fuel r.type r.name

/-- The C++ expression `value_as_string` writes.  (ValueAsString.cpp:28-129) -/
inductive Expr where
  | oid (arcs : List Int)
  /-- `""` -/
  | empty
  /-- `qualifierValues::item` -/
  | item (qualifier item : Name)
  /-- `absl::string_view(text)` -/
  | view (text : List Char)
  | int (i : Int)
  | name (n : Name)
  | bool (b : Bool)
  /-- `std::to_string` of the double -/
  | real (bits : UInt64)
  /-- no text at all -/
  | nothing
  deriving DecidableEq

/-- The numbers written for the components of an object identifier: 0 for names (CompilerTypes.hpp:689-728, ValueAsString.cpp:40-50).  `none`: the constructor throws. -/
def arcsText : List Value → Option (List Int)
  | [] => some []
  | .defined _ :: vs => (arcsText vs).map (0 :: ·)
  | .str _ :: vs => (arcsText vs).map (0 :: ·)
  | .int i :: vs => (arcsText vs).map (i :: ·)
  | .namedNumber _ i :: vs => (arcsText vs).map (i :: ·)
  | _ :: _ => none

/-- `value_as_string` (ValueAsString.cpp:28-129). -/
def valueAsString (name : Name) (t : AType) (v : Value) : Res Expr :=
  match t, v with
  | .leaf .objectIdentifier, .list vs =>
    match arcsText vs with
    | some is => .ok (.oid is)
    | none => .ok .nothing
  | .leaf .objectIdentifier, _ => .ok .nothing
  | .leaf .bitString, _ => .ok .empty
  | .leaf .enumerated, .defined r => .ok (.item name r)
  | .leaf .enumerated, _ => .throw .other
  | _, .str s => .ok (.name s)
  | _, .hex s => .ok (.view (Names.cppHex s.toList))
  | _, .chars s => .ok (.view (Names.cppChars s.toList))
  | _, .int i => .ok (.int i)
  | _, .defined r => .ok (.name r)
  | _, .bool b => .ok (.bool b)
  | _, .real d => .ok (.real d)
  | _, _ => .throw .other

/-- `static constexpr type name = expr;` or `static const ...`.  (CompilerMain.cpp:41-60) -/
structure Decl where
  name : Name
  type : CType
  expr : Expr

/-- `assigned_to_type` (CompilerMain.cpp:47-51): references are followed one step. -/
def assignedTo (tree : Tree) (mod : Module) : AType → Res AType
  | .defined m ref _ => do
    let wm ← findModule tree (m.getD mod.name)
    let a ← findAssignment wm ref
    match a.body with
    | .type u => .ok u
    | _ => .throw .notAType
  | t => .ok t

/-- `create_assignment` for a value (CompilerMain.cpp:41-60). -/
def createConstant (tree : Tree) (fuel : Nat) (mod : Module) (name : Name) (t : AType) (v : Value) : Res Decl := do
  let u ← assignedTo tree mod t
  let c ← valueType tree mod fuel t ""
  let e ← valueAsString name u v
  .ok ⟨name, c, e⟩

/-- The function of a `DefaultValue` struct (TypeAsString.cpp:35-43): its type and what it returns. -/
def createDefault (tree : Tree) (fuel : Nat) (mod : Module) (name : Name) (t : AType) (v : Value) : Res Decl := do
  let c ← valueType tree mod fuel t name
  let r ← resolveType tree mod.name fuel name t
  let e ← valueAsString r.name r.type v
  .ok ⟨name, c, e⟩

/-! ## What C++ makes of it -/

/-- A constant of a namespace.  (CompilerMain.cpp:41-60, 81-100) -/
structure Entry where
  name : Name
  type : CType
  value : Const
  /-- It may be used in constant expressions. -/
  usable : Bool

/-- What the C++ compiler makes of an initialiser: a value, an error, or something that is not modelled here.  (Not code of the repository: what a C++ compiler makes of the text written by CompilerMain.cpp:41-100 and TypeAsString.cpp:29-43.) -/
inductive Init where
  | value (c : Const)
  | error
  | unknown
  deriving DecidableEq

/-- Surroundings of the declarations of a namespace: the enumerations that can be named there and the double a number printed with six decimals is read as.  (Not code of the repository: what a C++ compiler makes of the text written by CompilerMain.cpp:41-100 and TypeAsString.cpp:29-43.) -/
structure Around where
  enums : Name → Option (List (Name × Int))
  printed : UInt64 → UInt64

/-- Initialisation of a constant of the type with the expression.  (Not code of the repository: what a C++ compiler makes of the text written by CompilerMain.cpp:41-100 and TypeAsString.cpp:29-43.) -/
def eval (ar : Around) (env : List Entry) (t : CType) : Expr → Init
  | .nothing => .error
  | .int i => if t = .int64 then
        /- 9223372036854775808 is no integer literal, hence there is none for -9223372036854775808 -/
        if -(2 ^ 63) < i ∧ i < 2 ^ 63 then .value (.int i) else .unknown
      else .unknown
  | .bool b => if t = .bool then .value (.bool b) else .unknown
  | .real d => if t = .double then .value (.real (ar.printed d)) else .unknown
  | .empty => if t = .view then .value (.octets []) else .unknown
  | .view s => if t = .view then
        match Names.Spec.literal s with
        | some l => .value (.octets (Names.Spec.upToNul l))
        | none => .unknown
      else .unknown
  | .oid is => if t = .oid then .value (.oid is) else .unknown
  | .item q i =>
    match ar.enums q with
    | none => .error
    | some items =>
      match items.find? (·.1 == i) with
      | none => .error
      | some (_, n) => if t = .values q then .value (.item q n) else .unknown
  | .name n =>
    match env.find? (·.name == n) with
    | none => .error
    | some e => if e.usable then (if e.type = t then .value e.value else .unknown) else .error

/-- Constants of namespaces, by module.  (Not code of the repository: what a C++ compiler makes of the text written by CompilerMain.cpp:41-100 and TypeAsString.cpp:29-43.) -/
abbrev Spaces := List (Name × List Entry)

/-- A constant of a namespace.  (Not code of the repository: what a C++ compiler makes of the text written by CompilerMain.cpp:41-100 and TypeAsString.cpp:29-43.) -/
def Spaces.find (ss : Spaces) (mod n : Name) : Option Entry := do
  let s ← ss.find? (·.1 == mod)
  s.2.find? (·.name == n)

/-- `static const auto n = module::n;`: usable in constant expressions if of integral or enumeration type (C++11 5.19). -/
def imported (e : Entry) : Entry :=
  { e with usable := match e.type with
    | .int64 => true
    | .bool => true
    | .values _ => true
    | _ => false }

/-- The value imports of a module (CompilerMain.cpp:79-100).  `none`: the C++ compiler rejects them. -/
def importConstants (ss : Spaces) : List (Name × Name) → List Entry → Option (List Entry)
  | [], env => some env
  | (m, n) :: is, env =>
    match ss.find m n with
    | none => none
    | some e => if env.any (·.name == n) then none else importConstants ss is (env ++ [imported e])

/-- A declaration of a namespace.  (Not code of the repository: what a C++ compiler makes of the text written by CompilerMain.cpp:41-100 and TypeAsString.cpp:29-43.) -/
def declare (ar : Around) (env : List Entry) (d : Decl) : Option (List Entry) :=
  if env.any (·.name == d.name) then none
  else match eval ar env d.type d.expr with
    | .value c => some (env ++ [⟨d.name, d.type, c, d.type ≠ .oid⟩])
    | _ => none

/-- The constants of the assignments of a module.  `some`: the C++ compiler accepts them.  Names of types are not looked at: they begin with an upper-case letter, those of values do not.  (CompilerMain.cpp:41-60, 81-100) -/
def assignConstants (tree : Tree) (fuel : Nat) (ar : Around) (mod : Module) : List Assignment → List Entry → Res (Option (List Entry))
  | [], env => .ok (some env)
  | a :: as, env =>
    match a.body with
    | .value t v => do
      let d ← createConstant tree fuel mod a.name t v
      match declare ar env d with
      | some env => assignConstants tree fuel ar mod as env
      | none => .ok none
    | _ => assignConstants tree fuel ar mod as env

/-- The imported values of a module, in order.  (CompilerMain.cpp:81-100) -/
def valueImports (mod : Module) : List (Name × Name) := mod.imports.flatMap fun i => i.values.map fun n => (i.module, n)

/-- The constants of all modules, which are written in order (CompilerMain.cpp:102-205). -/
def allConstants (tree : Tree) (fuel : Nat) (ar : Name → Around) : List Module → Spaces → Res (Option Spaces)
  | [], ss => .ok (some ss)
  | m :: ms, ss =>
    match importConstants ss (valueImports m) [] with
    | none => .ok none
    | some env => do
      match ← assignConstants tree fuel (ar m.name) m m.assignments env with
      | some env => allConstants tree fuel ar ms (ss ++ [(m.name, env)])
      | none => .ok none

end FastBer.Constants
