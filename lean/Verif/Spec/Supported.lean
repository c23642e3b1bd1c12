import Verif.Spec.Encoding
import Verif.Spec.Resolve
/-!
# The schemas for which the generated code is right

`Supported tree` lists restrictions on a schema, in terms of ASN.1 alone, under which the generated types implement the
ASN.1 types.  Some of them are rules of X.680; the others exclude schemas the compiler mistranslates
(`Props/Emit.lean` has an example for each kind).
-/
namespace FastBer.Ast.Spec
open FastBer.Ast

/-- The simple types for which compiler and library agree on a template and a tag. -/
def known : Builtin → Bool
  | .boolean => true
  | .integer => true
  | .bitString => true
  | .octetString => true
  | .null => true
  | .objectIdentifier => true
  | .real => true
  | .enumerated => true
  | .utcTime => true
  | .generalizedTime => true
  | .charString _ => true
  | _ => false

/-- The type leads, through references and alternatives of CHOICEs that are not tagged automatically, to tags and types whose tag the compiler knows. -/
inductive Begins (tree : Tree) : Module → AType → Prop where
  | leaf {mod : Module} {k : Builtin} : known k = true → Begins tree mod (.leaf k)
  | sequence (mod : Module) (cs : List Comp) (e : Bool) : Begins tree mod (.sequence cs e)
  | seqOf (mod : Module) (n : Option Name) (t : AType) (s : Storage) : Begins tree mod (.seqOf n t s)
  | set (mod : Module) (cs : List Comp) (e : Bool) : Begins tree mod (.set cs e)
  | setOf (mod : Module) (n : Option Name) (t : AType) (s : Storage) : Begins tree mod (.setOf n t s)
  | choice {mod : Module} {as : List Named} {s : Storage} : as ≠ [] → (mod.tagging ≠ .automatic → ∀ a, a ∈ as → Begins tree mod a.type) →
      Begins tree mod (.choice as s)
  | prefixed (mod : Module) (c : Cls) (n : Nat) (k : TagMode) (t : AType) : Begins tree mod (.prefixed c n k t)
  | reference {mod : Module} {m : Option Name} {ref : Name} {ps : List AType} {wm : Module} {t : AType} :
      target tree mod m ref = some (wm, t) → Begins tree wm t → Begins tree mod (.defined m ref ps)

/-- The tags of the type are translated correctly: there are at most two, of which the second is no CHOICE's or simple type's
unknown to the compiler; tags without EXPLICIT or IMPLICIT are not written in a module with AUTOMATIC TAGS, and a CHOICE
is tagged in modules with IMPLICIT TAGS only. -/
inductive TagSafe (tree : Tree) : Module → AType → Prop where
  | leaf {mod : Module} {k : Builtin} : known k = true → TagSafe tree mod (.leaf k)
  | sequence (mod : Module) (cs : List Comp) (e : Bool) : TagSafe tree mod (.sequence cs e)
  | seqOf (mod : Module) (n : Option Name) (t : AType) (s : Storage) : TagSafe tree mod (.seqOf n t s)
  | set (mod : Module) (cs : List Comp) (e : Bool) : TagSafe tree mod (.set cs e)
  | setOf (mod : Module) (n : Option Name) (t : AType) (s : Storage) : TagSafe tree mod (.setOf n t s)
  | choice {mod : Module} {as : List Named} {s : Storage} : Begins tree mod (.choice as s) → TagSafe tree mod (.choice as s)
  | prefixed {mod : Module} {c : Cls} {n : Nat} {k : TagMode} {t : AType} {x : Tag} {ts : List Tag} :
      TagSafe tree mod t → OwnTags tree mod t (x :: ts) → (k = .automatic → mod.tagging ≠ .automatic) →
      (ExplicitTag tree mod t k → ts = []) → TagSafe tree mod (.prefixed c n k t)
  | prefixedChoice {mod : Module} {c : Cls} {n : Nat} {t : AType} :
      TagSafe tree mod t → OwnTags tree mod t [] → mod.tagging = .implicit → TagSafe tree mod (.prefixed c n .automatic t)
  | reference {mod : Module} {m : Option Name} {ref : Name} {ps : List AType} {wm : Module} {t : AType} :
      target tree mod m ref = some (wm, t) → TagSafe tree wm t → TagSafe tree mod (.defined m ref ps)

/-- SEQUENCE, SET or CHOICE. -/
def isStruct : AType → Bool
  | .sequence _ _ => true
  | .set _ _ => true
  | .choice _ _ => true
  | _ => false

/-- SEQUENCE OF or SET OF. -/
def isList : AType → Bool
  | .seqOf _ _ _ => true
  | .setOf _ _ _ => true
  | _ => false

/-- The type is a tag in front of a reference to a SEQUENCE, SET or CHOICE, or a reference to such a type. -/
inductive Lost (tree : Tree) : Module → AType → Prop where
  | tagged {mod : Module} {c : Cls} {n : Nat} {k : TagMode} {t : AType} {m : Option Name} {ref : Name} {ps : List AType} {wm : Module} {u : AType} :
      untag t = .defined m ref ps → Core tree mod t wm u → isStruct u = true → Lost tree mod (.prefixed c n k t)
  | reference {mod : Module} {m : Option Name} {ref : Name} {ps : List AType} {wm : Module} {t : AType} :
      target tree mod m ref = some (wm, t) → Lost tree wm t → Lost tree mod (.defined m ref ps)

/-- `RefOk tree cur mod ref`: on the way from `ref` of module `mod`, a tagged reference without module name is met in module `cur` only. -/
inductive RefOk (tree : Tree) (cur : Name) : Name → Name → Prop where
  | here {mod ref : Name} {t : AType} : lookup tree mod ref = some (.type t) → (∀ m r, ¬ RefersTo mod t m r) → RefOk tree cur mod ref
  | alias {mod ref : Name} {m : Option Name} {r : Name} {ps : List AType} :
      lookup tree mod ref = some (.type (.defined m r ps)) → RefOk tree cur (m.getD mod) r → RefOk tree cur mod ref
  | tagged {mod ref : Name} {c : Cls} {k : Nat} {tm : TagMode} {m : Option Name} {r : Name} {ps : List AType} :
      lookup tree mod ref = some (.type (.prefixed c k tm (.defined m r ps))) → m.getD cur = m.getD mod →
      RefOk tree cur (m.getD mod) r → RefOk tree cur mod ref

/-- A component's name with its first letter in upper case. -/
def typeName (n : Name) : Name :=
  match n.toList with
  | [] => n
  | c :: cs => String.ofList (c.toUpper :: cs)

/-- Restrictions on schemas. -/
structure Supported (tree : Tree) : Prop where
  /-- X.680: names of modules are distinct. -/
  modules : tree.modules.Pairwise fun a b => a.name ≠ b.name
  /-- X.680: names of the assignments of a module are distinct. -/
  assignments : ∀ mod ∈ tree.modules, mod.assignments.Pairwise fun a b => a.name ≠ b.name
  /-- Names of types do not end in `Contained`, which the compiler appends to name element types. -/
  typeNames : ∀ mod ∈ tree.modules, ∀ a ∈ mod.assignments, a.name ≠ "" ∧ ∀ p, a.name ≠ p ++ "Contained"
  /-- Nor do names of components and alternatives. -/
  fieldNames : ∀ mod n t, Field tree mod n t → typeName n ≠ "" ∧ ∀ p, typeName n ≠ p ++ "Contained"
  /-- A component or alternative that is written as SEQUENCE OF or SET OF does not have the name of a type of the module. -/
  listNames : ∀ mod n t, Field tree mod n t → isList (untag t) = true → ∀ a ∈ mod.assignments, a.name ≠ typeName n ∧ a.name ≠ typeName n ++ "_"
  /-- Tags are translated correctly. -/
  tags : ∀ mod t, Occurs tree mod t → TagSafe tree mod t
  /-- Every reference leads somewhere. -/
  references : ∀ mod m ref ps, Occurs tree mod (.defined m ref ps) → RefOk tree mod.name (m.getD mod.name) ref
  /-- There is at most one tag in front of a reference. -/
  twice : ∀ mod c n k c' n' k' t, Occurs tree mod (.prefixed c n k (.prefixed c' n' k' t)) → ∀ m ref ps, untag t ≠ .defined m ref ps
  /-- SEQUENCE OF and SET OF types of other modules are not referred to. -/
  foreignLists : ∀ mod m ref ps wm u, Occurs tree mod (.defined m ref ps) → Core tree mod (.defined m ref ps) wm u → isList u = true →
    m.getD mod.name = mod.name
  /-- The elements of a SEQUENCE OF are not tagged references to SEQUENCE, SET or CHOICE. -/
  elements : ∀ mod n t s, Occurs tree mod (.seqOf n t s) → ¬ Lost tree mod t
  /-- The same for SET OF. -/
  setElements : ∀ mod n t s, Occurs tree mod (.setOf n t s) → ¬ Lost tree mod t
  /-- In a module with AUTOMATIC TAGS components and alternatives are written without tags, -/
  autoUntagged : ∀ mod n t, Field tree mod n t → mod.tagging = .automatic → hasTag t = false
  /-- are not of explicitly tagged types, -/
  autoSingle : ∀ mod n t ts, Field tree mod n t → mod.tagging = .automatic → OwnTags tree mod t ts → ts.length ≤ 1
  /-- are not references to SEQUENCE, SET and CHOICE types, -/
  autoReference : ∀ mod n m ref ps wm u, Field tree mod n (.defined m ref ps) → mod.tagging = .automatic →
    Core tree mod (.defined m ref ps) wm u → isStruct u = false
  /-- and components of a SEQUENCE are neither OPTIONAL nor have a DEFAULT. -/
  autoMandatory : ∀ mod cs e c, Occurs tree mod (.sequence cs e) → mod.tagging = .automatic → c ∈ cs → c.optional = false ∧ c.default = none

end FastBer.Ast.Spec
