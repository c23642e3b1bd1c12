import Verif.Model.Ast
/-!
# Following type references

Models `src/compiler/ResolveType.cpp`.  The loops and the recursion of the code follow references for as
long as there are any; the model counts the references it may still follow and gives `Res.loop` when the
count runs out, so "the code does not terminate" is "`Res.loop` for every count" and a result other than
`Res.loop` for some count is the result of the code (`resolveDefined_mono`).
-/
namespace FastBer.Ast

/-- `find_module(tree, name)` (ResolveType.cpp:15-25) and the search in `resolve_module` (138-152): the
first module of that name. -/
def findModule (tree : Tree) (n : Name) : Res Module :=
  match tree.modules.find? (·.name == n) with
  | some m => .ok m
  | none => .throw .undefinedModule

/-- `resolve(tree, module, reference)` (ResolveType.cpp:113-124): the first assignment of that name. -/
def findAssignment (m : Module) (ref : Name) : Res Assignment :=
  match m.assignments.find? (·.name == ref) with
  | some a => .ok a
  | none => .throw .undefinedType

/-- `NamedTypeAndModule` (ResolveType.hpp): what `resolve_type_and_module` returns. -/
structure Resolved where
  name : Name
  type : AType
  module : Module

/-- `resolve_type_and_module` for a `DefinedType` (ResolveType.cpp:159-201).  `cur` is the parameter
`current_module_reference`, `module` the local variable of that name, `m`/`ref` the local `defined`.
The `assert` on the first letter of the reference (166) is not modelled.  A tagged reference is resolved
by a recursive call that starts again from `cur` (186-187). -/
def resolveDefined (tree : Tree) (cur : Name) : Nat → Name → Option Name → Name → Res Resolved
  | 0, _, _, _ => .loop
  | fuel + 1, module, m, ref => do
    let wm ← findModule tree (m.getD module)
    let a ← findAssignment wm ref
    match a.body with
    | .type (.defined m' ref' _) => resolveDefined tree cur fuel (m.getD module) m' ref'
    | .type (.prefixed c n k (.defined m' ref' _)) => do
      let inner ← resolveDefined tree cur fuel cur m' ref'
      .ok ⟨a.name, .prefixed c n k inner.type, inner.module⟩
    | .type t => .ok ⟨a.name, t, wm⟩
    | _ => .throw .notAType

/-- `resolve_type_and_module` for a `NamedType` (ResolveType.cpp:203-219): tags in front are dropped. -/
def resolveType (tree : Tree) (cur : Name) (fuel : Nat) (n : Name) : AType → Res Resolved
  | .defined m ref _ => resolveDefined tree cur fuel cur m ref
  | .prefixed _ _ _ t => resolveType tree cur fuel n t
  | t => do
    let m ← findModule tree cur
    .ok ⟨n, t, m⟩

end FastBer.Ast
