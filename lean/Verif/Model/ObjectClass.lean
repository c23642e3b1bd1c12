import Verif.Model.Resolve
/-!
# Information object classes

Models `src/compiler/ObjectClass.cpp`: `CLASS.&field` is replaced by the type of the field, then classes, names for them and
objects are removed.

`object_class_names` is a set of strings `module.name`; as neither part can contain a dot, the model uses pairs.
-/
namespace FastBer.Ast

/-- The loop over the fields of a class (ObjectClass.cpp:79-97): the first field of that name decides. -/
def fieldType (f : Name) : List ClassField → Res AType
  | [] => .throw .other
  | c :: cs => if c.name == f then match c.type with
      | some t => .ok t
      | none => .throw .other
    else fieldType f cs

/-- `create_concrete_type` (ObjectClass.cpp:70-98).  The class is looked up in the tree as it is at that moment; the pass changes the
types of type assignments only, which make it throw here, so the model looks it up in the original tree. -/
def createConcrete (tree : Tree) (mod : Name) (m : Option Name) (cls : Name) (fs : List Name) : Res AType := do
  let wm ← findModule tree (m.getD mod)
  let a ← findAssignment wm cls
  match a.body with
  | .objectClass cfs => match fs with
    | [f] => fieldType f cfs
    | _ => .throw .other
  | _ => .throw .other

mutual
/-- `object_class_to_concrete` (ObjectClass.cpp:4-68, 100-121).  The type put in is not looked at again. -/
def classConcrete (tree : Tree) (mod : Name) : AType → Res AType
  | .leaf k => .ok (.leaf k)
  | .defined m ref ps => .ok (.defined m ref ps)
  | .objField m c fs => createConcrete tree mod m c fs
  | .choice as s => do
    let as ← classConcreteAlts tree mod as
    .ok (.choice as s)
  | .sequence cs e => do
    let cs ← classConcreteComps tree mod cs
    .ok (.sequence cs e)
  | .set cs e => do
    let cs ← classConcreteComps tree mod cs
    .ok (.set cs e)
  | .seqOf n t s => do
    let t ← classConcrete tree mod t
    .ok (.seqOf n t s)
  | .setOf n t s => do
    let t ← classConcrete tree mod t
    .ok (.setOf n t s)
  | .prefixed c n k t => do
    let t ← classConcrete tree mod t
    .ok (.prefixed c n k t)
/-- The loop over the alternatives (ObjectClass.cpp:8-11). -/
def classConcreteAlts (tree : Tree) (mod : Name) : List Named → Res (List Named)
  | [] => .ok []
  | .mk n t :: as => do
    let t ← classConcrete tree mod t
    let as ← classConcreteAlts tree mod as
    .ok (.mk n t :: as)
/-- The loops over the components (ObjectClass.cpp:15-18, 27-30). -/
def classConcreteComps (tree : Tree) (mod : Name) : List Comp → Res (List Comp)
  | [] => .ok []
  | .mk n t o d co s :: cs => do
    let t ← classConcrete tree mod t
    let cs ← classConcreteComps tree mod cs
    .ok (.mk n t o d co s :: cs)
end

/-- `object_class_names` (ObjectClass.cpp:200). -/
abbrev ClassNames := List (Name × Name)

/-- `object_class_names.insert(…)`: a set.  (ObjectClass.cpp:198-267) -/
def ClassNames.add (ns : ClassNames) (p : Name × Name) : ClassNames := if ns.contains p then ns else ns ++ [p]

/-- `is_a_parameter` (ResolveType.cpp:288-293). -/
def isAParameter (ref : Name) (ps : List Param) : Bool := ps.any fun p => p.reference == ref

/-- The two equal blocks of `get_object_class_names` for an assignment whose type is a reference (ObjectClass.cpp:210-226,
227-243).  In the last condition the module of the reference is ignored. -/
def classNamesRef (tree : Tree) (mod : Name) (a : Assignment) (m : Option Name) (ref : Name) (ns : ClassNames) : Res ClassNames :=
  if isAParameter ref a.params then .ok ns
  else do
    let wm ← findModule tree (m.getD mod)
    let b ← findAssignment wm ref
    match b.body with
    | .objectClass _ => .ok (ns.add (mod, a.name))
    | _ => if ns.contains (mod, ref) then .ok (ns.add (mod, a.name)) else .ok ns

/-- One assignment in `get_object_class_names` (ObjectClass.cpp:208-248). -/
def classNamesAssignment (tree : Tree) (mod : Name) (a : Assignment) (ns : ClassNames) : Res ClassNames :=
  match a.body with
  | .type (.defined m ref _) => classNamesRef tree mod a m ref ns
  | .value (.defined m ref _) _ => classNamesRef tree mod a m ref ns
  | .objectClass _ => .ok (ns.add (mod, a.name))
  | _ => .ok ns

/-- One name of an import (ObjectClass.cpp:257-260). -/
def classNamesImported (mod from_ : Name) (ns : ClassNames) (n : Name) : ClassNames :=
  if ns.contains (from_, n) then ns.add (mod, n) else ns

/-- The loop over the imports of all modules (ObjectClass.cpp:251-263). -/
def classNamesImports (tree : Tree) (ns : ClassNames) : ClassNames :=
  tree.modules.foldl (fun ns m => m.imports.foldl (fun ns i => i.types.foldl (classNamesImported m.name i.module) ns) ns) ns

/-- The body of the `do` loop (ObjectClass.cpp:205-263). -/
def classNamesRound (tree : Tree) (ns : ClassNames) : Res ClassNames := do
  let ns ← tree.modules.foldlM (fun ns m => m.assignments.foldlM (fun ns a => classNamesAssignment tree m.name a ns) ns) ns
  .ok (classNamesImports tree ns)

/-- The `do … while` loop (ObjectClass.cpp:203-264).  The fuel bounds the number of rounds; `objectClassNames` supplies one
more than there are names. -/
def classNamesLoop (tree : Tree) : Nat → ClassNames → Res ClassNames
  | 0, _ => .loop
  | fuel + 1, ns => do
    let ns' ← classNamesRound tree ns
    if ns'.length > ns.length then classNamesLoop tree fuel ns' else .ok ns'

/-- All names of the tree.  (ObjectClass.cpp:198-267) -/
def allNames (tree : Tree) : List (Name × Name) := tree.modules.flatMap fun m =>
  m.assignments.map (fun a => (m.name, a.name)) ++ m.imports.flatMap fun i => i.types.map fun n => (m.name, n)

/-- `get_object_class_names` (ObjectClass.cpp:198-266). -/
def objectClassNames (tree : Tree) : Res ClassNames := classNamesLoop tree ((allNames tree).length + 1) []

/-- `is_defined_object_class` (ObjectClass.cpp:123-142). -/
def isClassRef (mod : Name) (ns : ClassNames) : AType → Bool
  | .defined m ref _ => ns.contains (m.getD mod, ref)
  | _ => false

/-- The condition of `remove_if` (ObjectClass.cpp:151-178). -/
def isRemoved (mod : Name) (ns : ClassNames) (a : Assignment) : Bool :=
  match a.body with
  | .objectClass _ => true
  | .type (.defined m ref ps) => isClassRef mod ns (.defined m ref ps)
  | .value (.defined m ref ps) _ => isClassRef mod ns (.defined m ref ps)
  | _ => a.params.any fun p => match p.governor with
    | some t => isClassRef mod ns t
    | none => false

/-- `remove_object_classes` (ObjectClass.cpp:144-196). -/
def removeClasses (ns : ClassNames) (m : Module) : Module :=
  { m with
    assignments := m.assignments.filter fun a => !isRemoved m.name ns a
    imports := m.imports.map fun i => { i with types := i.types.filter fun n => !ns.contains (i.module, n) } }

/-- The loop over the assignments of `resolve_object_classes` (ObjectClass.cpp:275-282). -/
def classAssignment (tree : Tree) (mod : Name) (a : Assignment) : Res Assignment :=
  match a.body with
  | .type t => do
    let t ← classConcrete tree mod t
    .ok { a with body := .type t }
  | _ => .ok a

/-- `resolve_object_classes` (ObjectClass.cpp:269-286). -/
def resolveObjectClasses (tree : Tree) : Res Tree := do
  let ns ← objectClassNames tree
  let ms ← tree.modules.mapM fun m => do
    let as ← m.assignments.mapM (classAssignment tree m.name)
    .ok { m with assignments := as }
  .ok ⟨ms.map (removeClasses ns)⟩

end FastBer.Ast
