import Verif.Model.Ast
/-!
# Module level passes: `check_duplicated_names`, `reorder_modules`, `split_imports`

Models `src/compiler/ReorderAssignments.cpp:28-40, 475-500, 560-627`.
`std::unordered_set<std::string>` becomes a list used only through membership.
-/
namespace FastBer.Ast

/-- The loop of `check_duplicated_names` (ReorderAssignments.cpp:31-39): `defined` is the set of names
seen so far. -/
def checkDuplicatedFrom (defined : List Name) : List Assignment → Res Unit
  | [] => .ok ()
  | a :: as => if defined.contains a.name then .throw .duplicateName
               else checkDuplicatedFrom (a.name :: defined) as

/-- `check_duplicated_names` (ReorderAssignments.cpp:28-40). -/
def checkDuplicatedNames (as : List Assignment) : Res Unit := checkDuplicatedFrom [] as

/-- `module_map.find(name)`: the map is filled by `module_map[m.module_reference] = m` for each module in
turn (ReorderAssignments.cpp:607-611), so the last module of a name wins. -/
def findLast (ms : List Module) (n : Name) : Option Module := ms.reverse.find? (·.name == n)

/-- The three collections `resolve_module_dependencies` mutates.  (ReorderAssignments.cpp:560-562) -/
structure ModState where
  assigned : List Name
  visited : List Name
  ordered : List Module

/-- `resolve_module_dependencies` (ReorderAssignments.cpp:562-599).  The fuel bounds the depth of the
recursion; `reorderModules` supplies enough (theorem `C55_terminates`).  For a module that does not
exist the code binds a reference to `module_iter->second` with `module_iter == end()` before it checks:
undefined behaviour. -/
def resolveModule (ms : List Module) : Nat → Name → ModState → Res ModState
  | 0, _, _ => .loop
  | fuel + 1, n, s =>
    match findLast ms n with
    | none => .ub
    | some m =>
      if s.assigned.contains n then .ok s
      else if s.visited.contains n then
        .ok { s with ordered := s.ordered ++ [m], assigned := n :: s.assigned }
      else do
        let s ← m.imports.foldlM (fun s i => resolveModule ms fuel i.module s)
          { s with visited := n :: s.visited }
        .ok { s with ordered := s.ordered ++ [m], assigned := n :: s.assigned }

/-- `reorder_modules` (ReorderAssignments.cpp:601-627). -/
def reorderModules (ms : List Module) : Res (List Module) := do
  let s ← ms.foldlM (fun s m => resolveModule ms (ms.length + 2) m.name s) ⟨[], [], []⟩
  if ms.length != s.ordered.length then .throw .lostDefinitions else .ok s.ordered

/-- `split_imports` (ReorderAssignments.cpp:475-500): one type assignment per imported type name. -/
def splitImports (as : List Assignment) (is : List Import) : List Assignment :=
  as ++ is.flatMap fun i => i.types.map fun t => { name := t, body := .type (.defined (some i.module) t []) }

end FastBer.Ast
