import Verif.Spec.Source
import Verif.Spec.Supported
import Verif.Spec.Legal
/-!
# The source files for which the generated code is right

The conditions of `Spec/Supported.lean` are on the schema the passes of the compiler have made.  Those here are on the source itself; `qualify src` is the source
with every reference written with the module it leads to (`Spec/Source.lean`).
-/
namespace FastBer.Ast.Spec
open FastBer.Ast

/-- The type is a tagged SEQUENCE, SET or CHOICE, or a reference to such a type. -/
inductive TaggedStruct (tree : Tree) : Module → AType → Prop where
  | tagged {mod : Module} {c : Cls} {n : Nat} {k : TagMode} {t : AType} {wm : Module} {u : AType} :
      Core tree mod t wm u → isStruct u = true → TaggedStruct tree mod (.prefixed c n k t)
  | reference {mod : Module} {m : Option Name} {ref : Name} {ps : List AType} {wm : Module} {t : AType} :
      target tree mod m ref = some (wm, t) → TaggedStruct tree wm t → TaggedStruct tree mod (.defined m ref ps)

/-- `SourceRefOk src cur mod ref`: on the way from `ref` of module `mod`, following references and imports, a tagged reference without module name is met
in module `cur` only. -/
inductive SourceRefOk (src : Tree) (cur : Name) : Name → Name → Prop where
  | here {mod ref : Name} {t : AType} : lookup src mod ref = some (.type t) → (∀ m r, ¬ RefersTo mod t m r) → SourceRefOk src cur mod ref
  | alias {mod ref : Name} {m : Option Name} {r : Name} {ps : List AType} :
      lookup src mod ref = some (.type (.defined m r ps)) → SourceRefOk src cur (m.getD mod) r → SourceRefOk src cur mod ref
  | tagged {mod ref : Name} {c : Cls} {k : Nat} {tm : TagMode} {m : Option Name} {r : Name} {ps : List AType} :
      lookup src mod ref = some (.type (.prefixed c k tm (.defined m r ps))) → m.getD cur = m.getD mod →
      SourceRefOk src cur (m.getD mod) r → SourceRefOk src cur mod ref
  | imported {m : Module} {i : Import} {ref : Name} : m ∈ src.modules → i ∈ m.imports → ref ∈ i.types →
      SourceRefOk src cur i.module ref → SourceRefOk src cur m.name ref

/-- SEQUENCE, SET, CHOICE or ENUMERATED: what gets a name of its own, if it is written after a tag. -/
def getsName : AType → Bool
  | .sequence _ _ => true
  | .set _ _ => true
  | .choice _ _ => true
  | .leaf .enumerated => true
  | _ => false

/-- Restrictions on sources. -/
structure SupportedSource (src : Tree) : Prop where
  /-- Names of types, assigned or imported, do not end in `Contained`. -/
  typeNames : ∀ mod ∈ src.modules, ∀ a ∈ mod.assignments, a.name ≠ "" ∧ ∀ p, a.name ≠ p ++ "Contained"
  importedNames : ∀ mod ∈ src.modules, ∀ i ∈ mod.imports, ∀ n ∈ i.types, n ≠ "" ∧ ∀ p, n ≠ p ++ "Contained"
  /-- Nor do names of components and alternatives. -/
  fieldNames : ∀ mod n t, Field src mod n t → typeName n ≠ "" ∧ ∀ p, typeName n ≠ p ++ "Contained"
  /-- A component or alternative that is written as SEQUENCE OF or SET OF does not have the name of a type of the module, -/
  listNames : ∀ mod n t, Field src mod n t → isList (untag t) = true → ∀ a ∈ mod.assignments, a.name ≠ typeName n ∧ a.name ≠ typeName n ++ "_"
  /-- of an imported type, -/
  listImports : ∀ mod n t, Field src mod n t → isList (untag t) = true → ∀ i ∈ mod.imports, ∀ x ∈ i.types, x ≠ typeName n ∧ x ≠ typeName n ++ "_"
  /-- or one the compiler makes up. -/
  listMadeUp : ∀ mod n t, Field src mod n t → isList (untag t) = true → ¬ MadeUp (typeName n)
  /-- Tags are translated correctly. -/
  tags : ∀ mod t, Occurs (qualify src) mod t → TagSafe (qualify src) mod t
  /-- Every reference leads somewhere. -/
  references : ∀ mod m ref ps, Occurs src mod (.defined m ref ps) → SourceRefOk src mod.name (m.getD mod.name) ref
  /-- So does every imported name. -/
  imports : ∀ mod ∈ src.modules, ∀ i ∈ mod.imports, ∀ n ∈ i.types, SourceRefOk src mod.name i.module n
  /-- There is at most one tag in front of a reference, SEQUENCE, SET, CHOICE or ENUMERATED. -/
  twice : ∀ mod c n k c' n' k' t, Occurs src mod (.prefixed c n k (.prefixed c' n' k' t)) →
    (∀ m ref ps, untag t ≠ .defined m ref ps) ∧ getsName (untag t) = false
  /-- SEQUENCE OF and SET OF types of other modules are not referred to -/
  foreignLists : ∀ mod m ref ps wm u, Occurs src mod (.defined m ref ps) →
    Core (qualify src) mod (qualifyType src mod.name (.defined m ref ps)) wm u → isList u = true → m.getD mod.name = mod.name
  /-- and not imported. -/
  importedLists : ∀ mod ∈ src.modules, ∀ i ∈ mod.imports, ∀ n ∈ i.types, ∀ wm u,
    Core (qualify src) mod (qualifyType src mod.name (.defined (some i.module) n [])) wm u → isList u = false
  /-- The elements of a SEQUENCE OF are not tagged SEQUENCE, SET or CHOICE types. -/
  elements : ∀ mod n t s, Occurs (qualify src) mod (.seqOf n t s) → ¬ TaggedStruct (qualify src) mod t
  /-- The same for SET OF. -/
  setElements : ∀ mod n t s, Occurs (qualify src) mod (.setOf n t s) → ¬ TaggedStruct (qualify src) mod t
  /-- In a module with AUTOMATIC TAGS components and alternatives are written without tags, -/
  autoUntagged : ∀ mod n t, Field (qualify src) mod n t → mod.tagging = .automatic → hasTag t = false
  /-- are not of explicitly tagged types, -/
  autoSingle : ∀ mod n t ts, Field (qualify src) mod n t → mod.tagging = .automatic → OwnTags (qualify src) mod t ts → ts.length ≤ 1
  /-- are not references to SEQUENCE, SET and CHOICE types, -/
  autoReference : ∀ mod n m ref ps wm u, Field (qualify src) mod n (.defined m ref ps) → mod.tagging = .automatic →
    Core (qualify src) mod (.defined m ref ps) wm u → isStruct u = false
  /-- and components of a SEQUENCE are neither OPTIONAL nor have a DEFAULT. -/
  autoMandatory : ∀ mod cs e c, Occurs (qualify src) mod (.sequence cs e) → mod.tagging = .automatic → c ∈ cs → c.optional = false ∧ c.default = none

end FastBer.Ast.Spec
