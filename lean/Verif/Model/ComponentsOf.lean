import Verif.Model.Resolve
/-!
# COMPONENTS OF

Models `resolve_components_of` (ReorderAssignments.cpp:42-130).  The pass walks over all assignments of all modules and
changes them in place; a reference is looked up in the tree as it is at that moment.
-/
namespace FastBer.Ast

/-- `resolve(tree, module_reference, defined)` (ResolveType.cpp:73-111) while the assignment `a` of module `m` is being worked
on: `before`, `doneAs` were dealt with already, `rest`, `after` come later.  The result `none` is the assignment `a` itself. -/
def spotFind (before : List Module) (m : Module) (doneAs : List Assignment) (a : Assignment) (rest : List Assignment)
    (after : List Module) (mod ref : Name) : Res (Option Assignment) :=
  match before.find? (·.name == mod) with
  | some m' => do
    let b ← findAssignment m' ref
    .ok (some b)
  | none =>
    if m.name == mod then
      match doneAs.find? (·.name == ref) with
      | some b => .ok (some b)
      | none =>
        if a.name == ref then .ok none
        else match rest.find? (·.name == ref) with
          | some b => .ok (some b)
          | none => .throw .undefinedType
    else
      match after.find? (·.name == mod) with
      | some m' => do
        let b ← findAssignment m' ref
        .ok (some b)
      | none => .throw .undefinedModule

/-- The loop over the components (ReorderAssignments.cpp:53-121).  After an insertion `iter` is moved to the COMPONENTS OF entry
again, so what was inserted is not looked at.  Inserting the components of the SEQUENCE into itself is undefined
behaviour; so is the use of `inheretied_sequence`, a reference into an element of the vector, after the insertion
(98, 111), which matters if anything was inserted. -/
def expandComps (find : Option Name → Name → Res (Option Assignment)) : List Comp → Res (List Comp)
  | [] => .ok []
  | c :: cs =>
    match c.componentsOf with
    | none => do
      let cs ← expandComps find cs
      .ok (c :: cs)
    | some (.defined m ref _) => do
      let found ← find m ref
      match found with
      | none => .ub
      | some b =>
        match b.body with
        | .type (.sequence ds _) => do
          let cs ← expandComps find cs
          .ok (ds ++ c :: cs)
        | .type (.set ds _) => do
          let cs ← expandComps find cs
          .ok (ds ++ c :: cs)
        | .type _ => do
          let cs ← expandComps find cs
          .ok (c :: cs)
        | _ => .throw .notAType
    | some (.sequence ds _) =>
      if ds.isEmpty then do
        let cs ← expandComps find cs
        .ok (c :: cs)
      else .ub
    | some (.set ds _) =>
      if ds.isEmpty then do
        let cs ← expandComps find cs
        .ok (c :: cs)
      else .ub
    | some _ => .throw .strangeType

/-- One assignment (ReorderAssignments.cpp:46-126): only a SEQUENCE definition is looked at; at the end every COMPONENTS OF
entry is erased. -/
def expandAssignment (find : Option Name → Name → Res (Option Assignment)) (a : Assignment) : Res Assignment :=
  match a.body with
  | .type (.sequence cs e) => do
    let cs ← expandComps find cs
    .ok { a with body := .type (.sequence (cs.filter fun c => c.componentsOf.isNone) e) }
  | _ => .ok a

/-- The loop over the assignments (ReorderAssignments.cpp:46). -/
def expandAssignments (before : List Module) (m : Module) (after : List Module) :
    List Assignment → List Assignment → Res (List Assignment)
  | done, [] => .ok done
  | done, a :: rest => do
    let a' ← expandAssignment (fun m' ref => spotFind before m done a rest after (m'.getD m.name) ref) a
    expandAssignments before m after (done ++ [a']) rest

/-- The loop over the modules (ReorderAssignments.cpp:44). -/
def expandModules : List Module → List Module → Res (List Module)
  | done, [] => .ok done
  | done, m :: rest => do
    let as ← expandAssignments done m rest [] m.assignments
    expandModules (done ++ [{ m with assignments := as }]) rest

/-- `resolve_components_of` (ReorderAssignments.cpp:42-130). -/
def resolveComponentsOf (tree : Tree) : Res Tree := do
  let ms ← expandModules [] tree.modules
  .ok ⟨ms⟩

end FastBer.Ast
