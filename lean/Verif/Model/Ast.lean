import Verif.Base
/-!
# Syntax trees of the ASN.1 compiler

Models `src/compiler/include/fast_ber/compiler/CompilerTypes.hpp`: the structures the parser builds
and every compiler pass works on.  `absl::variant` becomes an inductive type, `std::vector` a list,
`std::unique_ptr<T>` (never null after parsing) the value pointed to.
-/
namespace FastBer.Ast

/-- Names are C++ `std::string`s.  (CompilerTypes.hpp: every `name`, `reference`) -/
abbrev Name := String

/-- Why a pass threw `std::runtime_error`; `cpp`: the generated C++ does not compile (`Model/Cpp.lean`).  (`throw std::runtime_error` in src/compiler/*.cpp; the message is reduced to its kind) -/
inductive Err where
  | duplicateName
  | undefinedType
  | undefinedModule
  | circular
  | lostDefinitions
  | notAType
  | strangeType
  | duplicateIdentifier
  | cpp
  | other
  deriving DecidableEq, Repr

/-- Outcome of running a compiler pass: normal completion, an exception (which ends the compiler with
a message), undefined behaviour, or never terminating.  (`try`/`catch` of `main`, CompilerMain.cpp:207-294) -/
inductive Res (α : Type u) where
  | ok (a : α)
  | throw (e : Err)
  | ub
  | loop
  deriving DecidableEq, Repr

namespace Res

/-- C++ statements one after the other: an exception ends the rest.  Not code of its own. -/
def bind {α : Type u} {β : Type v} (x : Res α) (f : α → Res β) : Res β :=
  match x with
  | ok a => f a
  | throw e => throw e
  | ub => ub
  | loop => loop

instance : Monad Res where
  pure := ok
  bind := bind

@[simp] theorem pure_eq {α : Type u} (a : α) : (pure a : Res α) = ok a := rfl
@[simp] theorem ok_bind {α β : Type u} (a : α) (f : α → Res β) : (ok a >>= f) = f a := rfl
@[simp] theorem throw_bind {α β : Type u} (e : Err) (f : α → Res β) :
    ((throw e : Res α) >>= f) = throw e := rfl
@[simp] theorem ub_bind {α β : Type u} (f : α → Res β) : ((ub : Res α) >>= f) = ub := rfl
@[simp] theorem loop_bind {α β : Type u} (f : α → Res β) : ((loop : Res α) >>= f) = loop := rfl

theorem bind_eq_ok {α β : Type u} {x : Res α} {f : α → Res β} {b : β} :
    (x >>= f) = ok b ↔ ∃ a, x = ok a ∧ f a = ok b := by
  cases x <;> simp

theorem bind_eq_throw {α β : Type u} {x : Res α} {f : α → Res β} {e : Err} :
    (x >>= f) = throw e ↔ x = throw e ∨ ∃ a, x = ok a ∧ f a = throw e := by
  cases x <;> simp

theorem bind_eq_loop {α β : Type u} {x : Res α} {f : α → Res β} :
    (x >>= f) = loop ↔ x = loop ∨ ∃ a, x = ok a ∧ f a = loop := by
  cases x <;> simp

theorem bind_eq_ub {α β : Type u} {x : Res α} {f : α → Res β} :
    (x >>= f) = ub ↔ x = ub ∨ ∃ a, x = ok a ∧ f a = ub := by
  cases x <;> simp

end Res

/-- `TaggingMode` (CompilerTypes.hpp:22-27). -/
inductive TagMode where
  | explicit_ | implicit | automatic
  deriving DecidableEq, Repr

/-- `Class` (CompilerTypes.hpp:29-35). -/
inductive Cls where
  | universal | application | contextSpecific | private_
  deriving DecidableEq, Repr

/-- `StorageMode` (CompilerTypes.hpp:37-42). -/
inductive Storage where
  | static_ | smallBuffer | dynamic
  deriving DecidableEq, Repr

/-- The alternatives of `BuiltinType` that hold no other type (CompilerTypes.hpp:60-62, 73-387).
`CharacterStringType` keeps its universal tag (`universal_tag`, 234-273) only, but T61String is on its own: it has the
tag of TeletexString and another C++ type (216).  The named numbers of
INTEGER and the items of ENUMERATED are dropped: no modelled pass looks at them. -/
inductive Builtin where
  | any | bitString | boolean | charString (tag : Nat) | date | dateTime | duration | embeddedPDV
  | enumerated | external | generalizedTime | instanceOf | integer | iri | null
  | objectDescriptor | objectIdentifier | octetString | real | relativeIRI | relativeOID
  | t61String | time | timeOfDay | utcTime
  deriving DecidableEq, Repr

/-- `Value::value_selection` (CompilerTypes.hpp:468-473).  `double` is kept as its 64 bits. -/
inductive Value where
  | list (vs : List Value)
  | int (i : Int)
  | str (s : String)
  | namedNumber (name : Name) (i : Int)
  | bits (s : String)
  | hex (s : String)
  | chars (s : String)
  | defined (ref : Name)
  | bool (b : Bool)
  | null
  | time (s : String)
  | real (bits : UInt64)

mutual
/-- `Type = variant<BuiltinType, DefinedType>` (CompilerTypes.hpp:380-394, 421-425). -/
inductive AType where
  | leaf (k : Builtin)
  | choice (alts : List Named) (storage : Storage)
  | sequence (cs : List Comp) (ext : Bool)
  | set (cs : List Comp) (ext : Bool)
  | seqOf (name : Option Name) (t : AType) (storage : Storage)
  | setOf (name : Option Name) (t : AType) (storage : Storage)
  | prefixed (cls : Cls) (num : Nat) (mode : TagMode) (t : AType)
  | objField (m : Option Name) (cls : Name) (fields : List Name)
  | defined (m : Option Name) (ref : Name) (params : List AType)
/-- `NamedType` (CompilerTypes.hpp:473-477). -/
inductive Named where
  | mk (name : Name) (t : AType)
/-- `ComponentType` (CompilerTypes.hpp:485-492). -/
inductive Comp where
  | mk (name : Name) (t : AType) (optional : Bool) (default : Option Value)
      (componentsOf : Option AType) (storage : Storage)
end

instance : Inhabited AType := ⟨.leaf .null⟩

namespace Named
/-- Member of `NamedType` (CompilerTypes.hpp:473-477). -/
def name : Named → Name | mk n _ => n
/-- Member of `NamedType` (CompilerTypes.hpp:473-477). -/
def type : Named → AType | mk _ t => t
end Named

namespace Comp
/-- Member of `ComponentType` (CompilerTypes.hpp:485-492). -/
def name : Comp → Name | mk n _ _ _ _ _ => n
/-- Member of `ComponentType` (CompilerTypes.hpp:485-492). -/
def type : Comp → AType | mk _ t _ _ _ _ => t
/-- Member of `ComponentType` (CompilerTypes.hpp:485-492). -/
def optional : Comp → Bool | mk _ _ o _ _ _ => o
/-- Member of `ComponentType` (CompilerTypes.hpp:485-492). -/
def default : Comp → Option Value | mk _ _ _ d _ _ => d
/-- Member of `ComponentType` (CompilerTypes.hpp:485-492). -/
def componentsOf : Comp → Option AType | mk _ _ _ _ c _ => c
/-- Member of `ComponentType` (CompilerTypes.hpp:485-492). -/
def storage : Comp → Storage | mk _ _ _ _ _ s => s
end Comp

/-- `ClassField` (CompilerTypes.hpp:519-532): `none` is a `TypeField`. -/
structure ClassField where
  name : Name
  type : Option AType

/-- `Assignment::specific` (CompilerTypes.hpp:506-517, 534-541, 567). -/
inductive Body where
  | type (t : AType)
  | value (t : AType) (v : Value)
  | objectClass (fs : List ClassField)
  | objectSet

/-- `Parameter` (CompilerTypes.hpp:542-546). -/
structure Param where
  governor : Option AType
  reference : Name

/-- `Assignment` (CompilerTypes.hpp:563-569) without `depends_on`, which is computed and consumed
inside one pass (`reorder_assignments`) and modelled there. -/
structure Assignment where
  name : Name
  body : Body
  params : List Param := []

/-- `Import` (CompilerTypes.hpp:571-576). -/
structure Import where
  module : Name
  types : List Name
  values : List Name := []

/-- `Module` (CompilerTypes.hpp:582-589); `exports` holds nothing. -/
structure Module where
  name : Name
  tagging : TagMode
  imports : List Import
  assignments : List Assignment

/-- `Asn1Tree` (CompilerTypes.hpp:591-594). -/
structure Tree where
  modules : List Module

end FastBer.Ast
