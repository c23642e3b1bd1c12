import Verif.Spec.Params
/-!
# What COMPONENTS OF means

`COMPONENTS OF T` stands for the components of the SEQUENCE or SET that `T` is, in their order; where those contain
COMPONENTS OF themselves, for what that stands for.
-/
namespace FastBer.Ast.Spec
open FastBer.Ast

/-- The type `t`, written in module `mod`, is the SEQUENCE or SET with components `ds`, to be read in module `mod'`. -/
def CollectionType (tree : Tree) (mod : Name) (t : AType) (mod' : Name) (ds : List Comp) : Prop :=
  ∃ e nm n, TypeStandsFor tree mod nm t n (.sequence ds e) mod' ∨ TypeStandsFor tree mod nm t n (.set ds e) mod'

/-- The components `cs`, written in module `mod`, are `cs'` when every COMPONENTS OF is replaced by what it stands for. -/
inductive Flattened (tree : Tree) : Name → List Comp → List Comp → Prop where
  | nil {mod : Name} : Flattened tree mod [] []
  | component {mod : Name} {c : Comp} {cs cs' : List Comp} : c.componentsOf = none → Flattened tree mod cs cs' →
      Flattened tree mod (c :: cs) (c :: cs')
  | componentsOf {mod mod' : Name} {c : Comp} {t : AType} {ds ds' cs cs' : List Comp} : c.componentsOf = some t →
      CollectionType tree mod t mod' ds → Flattened tree mod' ds ds' → Flattened tree mod cs cs' →
      Flattened tree mod (c :: cs) (ds' ++ cs')

/-- The assignment after the pass. -/
inductive FlattenedAssignment (tree : Tree) (mod : Name) : Assignment → Assignment → Prop where
  | sequence {n : Name} {cs cs' : List Comp} {e : Bool} {ps : List Param} : Flattened tree mod cs cs' →
      FlattenedAssignment tree mod ⟨n, .type (.sequence cs e), ps⟩ ⟨n, .type (.sequence cs' e), ps⟩
  | set {n : Name} {cs cs' : List Comp} {e : Bool} {ps : List Param} : Flattened tree mod cs cs' →
      FlattenedAssignment tree mod ⟨n, .type (.set cs e), ps⟩ ⟨n, .type (.set cs' e), ps⟩
  | other {a : Assignment} : components a.body = none → FlattenedAssignment tree mod a a

/-- The module after the pass. -/
def FlattenedModule (tree : Tree) (m m' : Module) : Prop :=
  m'.name = m.name ∧ m'.tagging = m.tagging ∧ m'.imports = m.imports ∧
  Pointwise (FlattenedAssignment tree m.name) m.assignments m'.assignments

/-- No component is a COMPONENTS OF. -/
def Flat (cs : List Comp) : Prop := ∀ c ∈ cs, c.componentsOf = none

/-- `ref` of module `mod'` comes before the assignment that follows `as₁` in the module `mod` that follows `ms₁`. -/
def Earlier (ms₁ : List Module) (mod : Name) (as₁ : List Assignment) (mod' ref : Name) : Prop :=
  mod' ∈ ms₁.map (·.name) ∨ (mod' = mod ∧ ref ∈ as₁.map (·.name))

/-- The trees the pass can deal with: names are distinct, SETs have no COMPONENTS OF, and every COMPONENTS OF in a
SEQUENCE definition names, without going through another reference, a SEQUENCE or SET that is flat or comes earlier. -/
structure Expandable (tree : Tree) : Prop where
  modules : (tree.modules.map (·.name)).Nodup
  assignments : ∀ m ∈ tree.modules, (m.assignments.map (·.name)).Nodup
  sets : ∀ m ∈ tree.modules, ∀ a ∈ m.assignments, ∀ cs e, a.body = .type (.set cs e) → Flat cs
  references : ∀ ms₁ m ms₂, tree.modules = ms₁ ++ m :: ms₂ → ∀ as₁ a as₂, m.assignments = as₁ ++ a :: as₂ →
    ∀ cs e, a.body = .type (.sequence cs e) → ∀ c ∈ cs, ∀ t, c.componentsOf = some t →
      ∃ m' ref ps b ds, t = .defined m' ref ps ∧ lookup tree (m'.getD m.name) ref = some b ∧ components b = some ds ∧
        (Flat ds ∨ Earlier ms₁ m.name as₁ (m'.getD m.name) ref)

end FastBer.Ast.Spec
