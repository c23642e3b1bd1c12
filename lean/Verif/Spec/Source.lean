import Verif.Spec.Encoding
import Verif.Spec.Split
/-!
# What the references of a source file mean

A type reference in a module is to a type assigned there or imported (X.680 13.17, 14).  `qualify` writes every reference of a schema with the
module the type is assigned in, so that imports play no role any more.
-/
namespace FastBer.Ast.Spec
open FastBer.Ast

/-- The module that assigns the type the name `ref` has in module `mod`: that module itself, or where an import leads to. -/
def originFrom (src : Tree) : Nat → Name → Name → Name
  | 0, mod, _ => mod
  | n + 1, mod, ref =>
    match src.modules.find? (·.name == mod) with
    | none => mod
    | some m =>
      if m.assignments.any (·.name == ref) then mod
      else match m.imports.find? (·.types.contains ref) with
        | none => mod
        | some i => originFrom src n i.module ref

/-- The same; imports that lead somewhere do so in as many steps as there are modules. -/
def origin (src : Tree) (mod ref : Name) : Name := originFrom src src.modules.length mod ref

mutual
/-- The type, written in module `own`, with the module of every reference. -/
def qualifyType (src : Tree) (own : Name) : AType → AType
  | .leaf k => .leaf k
  | .objField m c fs => .objField m c fs
  | .defined m ref ps => .defined (some (origin src (m.getD own) ref)) ref ps
  | .choice as s => .choice (qualifyAlts src own as) s
  | .sequence cs e => .sequence (qualifyComps src own cs) e
  | .set cs e => .set (qualifyComps src own cs) e
  | .seqOf n t s => .seqOf n (qualifyType src own t) s
  | .setOf n t s => .setOf n (qualifyType src own t) s
  | .prefixed c n k t => .prefixed c n k (qualifyType src own t)
def qualifyAlts (src : Tree) (own : Name) : List Named → List Named
  | [] => []
  | .mk n t :: as => .mk n (qualifyType src own t) :: qualifyAlts src own as
def qualifyComps (src : Tree) (own : Name) : List Comp → List Comp
  | [] => []
  | .mk n t o d co s :: cs => .mk n (qualifyType src own t) o d co s :: qualifyComps src own cs
end

/-- The assignment with the module of every reference in its type. -/
def qualifyAssignment (src : Tree) (own : Name) (a : Assignment) : Assignment :=
  match a.body with
  | .type t => { a with body := .type (qualifyType src own t) }
  | _ => a

def qualifyModule (src : Tree) (m : Module) : Module := { m with assignments := m.assignments.map (qualifyAssignment src m.name) }

/-- The schema with the module of every reference. -/
def qualify (src : Tree) : Tree := ⟨src.modules.map (qualifyModule src)⟩

/-- `ref`, as a name of module `mod`, is the name of a type. -/
def Leads (src : Tree) (mod ref : Name) : Prop :=
  ∃ m ∈ src.modules, m.name = origin src mod ref ∧ ∃ a ∈ m.assignments, a.name = ref ∧ ∃ t, a.body = .type t

/-- Schemas without parameterized types, COMPONENTS OF and information objects, whose references lead somewhere. -/
structure PlainSource (src : Tree) : Prop where
  /-- X.680: names of modules are distinct. -/
  modules : src.modules.Pairwise fun a b => a.name ≠ b.name
  /-- No parameterized assignments, -/
  params : ∀ m ∈ src.modules, ∀ a ∈ m.assignments, a.params = []
  /-- no references with parameters, -/
  arguments : ∀ m q ref ps, Occurs src m (.defined q ref ps) → ps = []
  /-- no COMPONENTS OF, -/
  componentsOf : ∀ m t, Occurs src m t → ¬ HasComponentsOf t
  /-- no object classes -/
  classes : ∀ m ∈ src.modules, ∀ a ∈ m.assignments, ∀ fs, a.body ≠ .objectClass fs
  /-- and no fields of objects. -/
  objects : ∀ m q c fs, ¬ Occurs src m (.objField q c fs)
  /-- The names are not those the compiler makes up. -/
  names : ∀ m ∈ src.modules, ∀ a ∈ m.assignments, ¬ MadeUp a.name
  importNames : ∀ m ∈ src.modules, ∀ i ∈ m.imports, ∀ n ∈ i.types, ¬ MadeUp n
  /-- Every reference is to a type. -/
  references : ∀ m q ref ps, Occurs src m (.defined q ref ps) → Leads src (q.getD m.name) ref
  /-- So is every imported name. -/
  imports : ∀ m ∈ src.modules, ∀ i ∈ m.imports, ∀ n ∈ i.types, Leads src i.module n

end FastBer.Ast.Spec
