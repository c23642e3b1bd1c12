import Verif.Model.Params
import Verif.Model.Modules
import Verif.Model.Split
import Verif.Model.ComponentsOf
import Verif.Model.ObjectClass
import Verif.Model.Depend
import Verif.Model.Emit
/-!
# The compiler from the parsed modules to the C++ types

Models `main` of `src/compiler_main/CompilerMain.cpp:264-283`.
-/
namespace FastBer.Ast

/-- The loop over the modules (CompilerMain.cpp:267-273).  `split_definitions` returns its argument (ReorderAssignments.cpp:503-505).  `k`
is the global counter of `find_nested_structs`. -/
def splitLoop : List Module → Nat → Res (List Module)
  | [], _ => .ok []
  | m :: ms, k => do
    let as := splitImports m.assignments m.imports
    checkDuplicatedNames as
    let r := splitAssignments m.name as k
    let ms' ← splitLoop ms r.2
    .ok ({ m with assignments := r.1 } :: ms')

/-- The loop over the modules (CompilerMain.cpp:278-281): `done` are the modules reordered so far, which the tree holds already. -/
def reorderLoop (rf : Nat) : List Module → List Module → Res (List Module)
  | done, [] => .ok done
  | done, m :: ms => do
    let as ← reorderAssignments ⟨done ++ m :: ms⟩ m.name rf m.assignments
    reorderLoop rf (done ++ [{ m with assignments := as }]) ms

/-- All passes before the output is written (CompilerMain.cpp:264-281). -/
def frontEnd (rf : Nat) (tree : Tree) : Res Tree := do
  let tree ← resolveParameters tree
  let ms ← reorderModules tree.modules
  let ms ← splitLoop ms 0
  let tree ← resolveComponentsOf ⟨ms⟩
  let tree ← resolveObjectClasses tree
  let ms ← reorderLoop rf [] tree.modules
  .ok ⟨ms⟩

/-- The compiler, from the parsed modules to what a C++ compiler makes of its output (CompilerMain.cpp:264-283). -/
def compile (lib : Lib) (fuel : Nat) (tree : Tree) : Res Env := do
  let tree ← frontEnd fuel tree
  generate lib fuel tree

end FastBer.Ast
