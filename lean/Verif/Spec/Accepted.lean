import Verif.Spec.SupportedSource
import Verif.Spec.Depend
/-!
# The source files the compiler accepts

Conditions on the source, beside those of `PlainSource` and `SupportedSource`, under which no pass before the generation of code complains.
-/
namespace FastBer.Ast.Spec
open FastBer.Ast

/-- The names a module assigns or imports. -/
def ownNames (m : Module) : List Name := m.assignments.map (·.name) ++ m.imports.flatMap (·.types)

/-- The assignment called `u` cannot be written without that of `v`: through a component of a SEQUENCE or SET that is not merely OPTIONAL, a DEFAULT given by name, or through anything
other than a SEQUENCE, SET, CHOICE or OF. -/
inductive Requires (own : Name) (as : List Assignment) : Name → Name → Prop where
  | component {a : Assignment} {cs : List Comp} {c : Comp} {v : Name} :
      a ∈ as → components a.body = some cs → c ∈ cs → (c.optional = false ∨ c.default.isSome = true) →
      Mentions own (.type c.type) v → Requires own as a.name v
  | default {a : Assignment} {cs : List Comp} {c : Comp} {v : Name} :
      a ∈ as → components a.body = some cs → c ∈ cs → c.default = some (.defined v) → c.type ≠ .leaf .enumerated → Requires own as a.name v
  | other {a : Assignment} {v : Name} :
      a ∈ as → components a.body = none → ¬ Recursive a.body → Mentions own a.body v → Requires own as a.name v

/-- Sources that are accepted. -/
structure Accepted (src : Tree) : Prop where
  /-- The modules imported from are there, -/
  imports : ∀ m ∈ src.modules, ∀ i ∈ m.imports, ∃ w ∈ src.modules, w.name = i.module
  /-- and no module imports from itself, directly or through others. -/
  cycles : ¬ ∃ n, Relation.TransGen (fun a b => ∃ m ∈ src.modules, m.name = a ∧ ∃ i ∈ m.imports, i.module = b) n n
  /-- Names assigned or imported are distinct. -/
  names : ∀ m ∈ src.modules, (ownNames m).Nodup
  /-- Everything mentioned without module name, a name after DEFAULT included, is assigned or (types only) imported.  The items of an ENUMERATED may be named after DEFAULT if it is written there. -/
  mentions : ∀ m ∈ src.modules, ∀ a ∈ m.assignments, ∀ n, Mentions m.name a.body n → n ∈ ownNames m
  /-- A type of a value that is a reference leads to a type. -/
  valueTypes : ∀ m ∈ src.modules, ∀ a ∈ m.assignments, ∀ q ref ps v, a.body = .value (.defined q ref ps) v → Leads src (q.getD m.name) ref
  /-- Types of other modules are not referred to by `Module.Type` inside SEQUENCE and SET, but imported. -/
  external : ∀ m t cs e, Occurs src m t → t = .sequence cs e ∨ t = .set cs e → ∀ c ∈ cs, ∀ q n ps, c.type = .defined q n ps ∨ Inside c.type (.defined q n ps) → q = none ∨ q = some m.name
  /-- No component of a SET has a name after DEFAULT. -/
  setDefaults : ∀ m t, Occurs src m t → ¬ SetWithDefaultName t
  /-- No assignment requires itself, directly or through others. -/
  recursion : ∀ m ∈ src.modules, ¬ ∃ n, Relation.TransGen (Requires m.name m.assignments) n n

end FastBer.Ast.Spec
