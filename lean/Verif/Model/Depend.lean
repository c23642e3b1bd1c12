import Verif.Model.Resolve
/-!
# Ordering the assignments of a module

Models `src/compiler/Dependencies.cpp` and `resolve_dependencies`, `reorder_assignments`
(ReorderAssignments.cpp:127-353).  `std::unordered_set` and `absl::flat_hash_set` become lists used only
through membership.
-/
namespace FastBer.Ast

/-- `Dependency` (CompilerTypes.hpp:548-562). -/
structure Dep where
  name : Name
  module : Option Name
  deriving DecidableEq, Repr

/-- `is_enumerated(Type)`: the type itself, not what it refers to.  (CompilerTypes.cpp:271-276) -/
def AType.isEnumerated : AType → Bool
  | .leaf .enumerated => true
  | _ => false

/-- The dependency on the default value of a component (Dependencies.cpp:44-50): only a `DefinedValue`, and only if
the type is not itself an ENUMERATED. -/
def defaultDep (t : AType) (d : Option Value) : List Dep :=
  match d with
  | some (.defined v) => if t.isEnumerated then [] else [⟨v, none⟩]
  | _ => []

mutual
/-- `depends_on(Type)` (Dependencies.cpp:3-106). -/
def dependsOn : AType → List Dep
  | .leaf _ => []
  | .objField _ _ _ => []
  | .choice alts _ => dependsOnAlts alts
  | .sequence cs _ => dependsOnSeq cs
  | .set cs _ => dependsOnSet cs
  | .seqOf _ t _ => dependsOn t
  | .setOf _ t _ => dependsOn t
  | .prefixed _ _ _ t => dependsOn t
  | .defined m ref _ => [⟨ref, m⟩]
/-- The loop of `depends_on(ChoiceType)` (Dependencies.cpp:9-13). -/
def dependsOnAlts : List Named → List Dep
  | [] => []
  | .mk _ t :: as => dependsOn t ++ dependsOnAlts as
/-- The loop of `depends_on(SequenceType)` (Dependencies.cpp:39-51). -/
def dependsOnSeq : List Comp → List Dep
  | [] => []
  | .mk _ t _ d _ _ :: cs => dependsOn t ++ defaultDep t d ++ dependsOnSeq cs
/-- The loop of `depends_on(SetType)` (Dependencies.cpp:68-72): default values are not looked at. -/
def dependsOnSet : List Comp → List Dep
  | [] => []
  | .mk _ t _ _ _ _ :: cs => dependsOn t ++ dependsOnSet cs
end

/-- `dependencies(Assignment)` (Dependencies.cpp:107-133). -/
def dependencies (a : Assignment) : List Dep :=
  match a.body with
  | .type t => dependsOn t
  | .value t (.defined v) => dependsOn t ++ [⟨v, none⟩]
  | .value t _ => dependsOn t
  | _ => []

/-- `assignment_map.find(name)`: the map is filled by `assignment_map[assignment.name] = assignment` for each
assignment in turn (ReorderAssignments.cpp:328-334), so the last one of a name wins. -/
def findLastAssignment (as : List Assignment) (n : Name) : Option Assignment := as.reverse.find? (·.name == n)

/-- `!dependency.module_reference || dependency.module_reference == module` (Dependencies.cpp:149,
ReorderAssignments.cpp:217-220, 307-310). -/
def Dep.isLocal (own : Name) (d : Dep) : Bool := d.module == none || d.module == some own

/-- `get_dependencies_recursive` (Dependencies.cpp:137-159): `deps n` is `depends_on` of the assignment called
`n`, `found` the set `depends`.  The fuel bounds the depth of the recursion; `isCircular` supplies
enough (`depsRec_no_loop`). -/
def depsRec (as : List Assignment) (own : Name) (deps : Name → List Dep) : Nat → Name → List Dep → Res (List Dep)
  | 0, _, _ => .loop
  | fuel + 1, n, found =>
    match findLastAssignment as n with
    | none => .throw .undefinedType
    | some _ => (deps n).foldlM (fun found d =>
        if d.isLocal own then
          if found.contains d then .ok found
          else depsRec as own deps fuel d.name (d :: found)
        else .ok found) found

/-- Enough fuel for `depsRec`: there are at most this many different dependencies.  (Not code: a bound for the recursion of Dependencies.cpp:137-157.) -/
def depFuel (as : List Assignment) : Nat := (as.flatMap dependencies).length + 1

/-- The local function `is_circular` of `resolve_dependencies` (ReorderAssignments.cpp:152-163). -/
def isCircular (as : List Assignment) (own : Name) (deps : Name → List Dep) (name : Name) (ds : List Name) :
    Res Bool := do
  let all ← ds.foldlM (fun found d => depsRec as own deps (depFuel as) d found) []
  .ok (all.any fun d => d.name == name)

/-- What `resolve_dependencies` mutates: `depends_on` of each assignment (`deps`), `assigned_names`,
`visited_names`, `ordered_assignment_infos`.  The storage modes it writes into `assignment_infos[name]` are not part
of the state: the entry is read again only by the `push_back` at the end of the same call (a nested call for the same
name throws or returns before it looks at the type), so the model builds the changed assignment and
appends it.  (parameters of `resolve_dependencies`, ReorderAssignments.cpp:132-136) -/
structure DepState where
  deps : Name → List Dep
  assigned : List Name
  visited : List Name
  out : List Assignment

/-- `assignment_infos[name].depends_on = {}` (ReorderAssignments.cpp:172). -/
def DepState.clear (s : DepState) (n : Name) : DepState :=
  { s with deps := fun x => if x == n then [] else s.deps x }

/-- Make a child of a recursive CHOICE dynamic (ReorderAssignments.cpp:188-195). -/
def markOf : AType → AType
  | .setOf n t _ => .setOf n t .dynamic
  | .seqOf n t _ => .seqOf n t .dynamic
  | t => t

/-- The loop body for one alternative of a recursive CHOICE (ReorderAssignments.cpp:181-196): one tag is looked
through. -/
def markAlt : Named → Named
  | .mk n (.prefixed c k m t) => .mk n (.prefixed c k m (markOf t))
  | .mk n t => .mk n (markOf t)

/-- `component.optional_storage = StorageMode::dynamic`.  (ReorderAssignments.cpp:158-215, 285-296) -/
def markComp : Comp → Comp
  | .mk n t o d co _ => .mk n t o d co .dynamic

/-- The dependencies followed in the first and last branch (ReorderAssignments.cpp:215-224, 305-314): those of other
modules are skipped. -/
def localDeps (own : Name) (ds : List Dep) : List Name := (ds.filter (·.isLocal own)).map (·.name)

/-- Follow a list of names.  (the loops over dependencies in ReorderAssignments.cpp:132-323) -/
def followAll (rec : Name → DepState → Res DepState) (ns : List Name) (s : DepState) : Res DepState :=
  ns.foldlM (fun s n => rec n s) s

/-- The default value of a component (ReorderAssignments.cpp:242-248, 282-288): a `DefinedValue` is followed unless
the type resolves to an ENUMERATED. -/
def followDefault (tree : Tree) (own : Name) (rf : Nat) (rec : Name → DepState → Res DepState) (c : Comp) (v : Value)
    (s : DepState) : Res DepState :=
  match v with
  | .defined ref => do
    let r ← resolveType tree own rf c.name c.type
    if r.type.isEnumerated then .ok s else rec ref s
  | _ => .ok s

/-- One component of a SEQUENCE or SET (ReorderAssignments.cpp:232-265, 272-303); the same code is written twice. -/
def followComp (as : List Assignment) (tree : Tree) (own : Name) (rf : Nat) (rec : Name → DepState → Res DepState)
    (name : Name) (c : Comp) (s : DepState) : Res (Comp × DepState) :=
  match c.default with
  | some v => do
    let s ← followAll rec ((dependsOn c.type).map (·.name)) s
    let s ← followDefault tree own rf rec c v s
    .ok (c, s)
  | none =>
    if c.optional then do
      let circ ← isCircular as own s.deps name ((dependsOn c.type).map (·.name))
      if circ then .ok (markComp c, s)
      else do
        let s ← followAll rec ((dependsOn c.type).map (·.name)) s
        .ok (c, s)
    else do
      let s ← followAll rec ((dependsOn c.type).map (·.name)) s
      .ok (c, s)

/-- The loop over the components (ReorderAssignments.cpp:230, 270). -/
def followComps (as : List Assignment) (tree : Tree) (own : Name) (rf : Nat) (rec : Name → DepState → Res DepState)
    (name : Name) : List Comp → DepState → Res (List Comp × DepState)
  | [], s => .ok ([], s)
  | c :: cs, s => do
    let (c', s) ← followComp as tree own rf rec name c s
    let (cs', s) ← followComps as tree own rf rec name cs s
    .ok (c' :: cs', s)

/-- The first branch: CHOICE, SET OF, SEQUENCE OF (ReorderAssignments.cpp:165-226).  `dyn` is the type with dynamic
storage. -/
def followBreakable (as : List Assignment) (own : Name) (rec : Name → DepState → Res DepState) (a : Assignment)
    (dyn : AType) (s : DepState) : Res (Assignment × DepState) := do
  let circ ← isCircular as own s.deps a.name [a.name]
  if circ then .ok ({ a with body := .type dyn }, s.clear a.name)
  else do
    let s ← followAll rec (localDeps own (s.deps a.name)) s
    .ok (a, s)

/-- The branches of `resolve_dependencies` (ReorderAssignments.cpp:165-315): the assignment with its storage modes
set, and the state after following its dependencies. -/
def followAssignment (as : List Assignment) (tree : Tree) (own : Name) (rf : Nat)
    (rec : Name → DepState → Res DepState) (a : Assignment) (s : DepState) : Res (Assignment × DepState) :=
  match a.body with
  | .type (.choice alts _) => followBreakable as own rec a (.choice (alts.map markAlt) .dynamic) s
  | .type (.setOf n t _) => followBreakable as own rec a (.setOf n t .dynamic) s
  | .type (.seqOf n t _) => followBreakable as own rec a (.seqOf n t .dynamic) s
  | .type (.sequence cs e) => do
    let (cs', s) ← followComps as tree own rf rec a.name cs s
    .ok ({ a with body := .type (.sequence cs' e) }, s)
  | .type (.set cs e) => do
    let (cs', s) ← followComps as tree own rf rec a.name cs s
    .ok ({ a with body := .type (.set cs' e) }, s)
  | _ => do
    let s ← followAll rec (localDeps own (s.deps a.name)) s
    .ok (a, s)

/-- `resolve_dependencies` (ReorderAssignments.cpp:127-319).  The fuel bounds the depth of the recursion;
`reorderAssignments` supplies enough (`resolveDeps_no_loop`). -/
def resolveDeps (as : List Assignment) (tree : Tree) (own : Name) (rf : Nat) : Nat → Name → DepState → Res DepState
  | 0, _, _ => .loop
  | fuel + 1, name, s =>
    match findLastAssignment as name with
    | none => .throw .undefinedType
    | some a =>
      if s.assigned.contains name then .ok s
      else if s.visited.contains name then .throw .circular
      else do
        let (a', s) ← followAssignment as tree own rf (resolveDeps as tree own rf fuel) a
          { s with visited := name :: s.visited }
        .ok { s with out := s.out ++ [a'], assigned := name :: s.assigned }

/-- The state `reorder_assignments` starts with (ReorderAssignments.cpp:328-341). -/
def initState (as : List Assignment) : DepState :=
  ⟨fun n => match findLastAssignment as n with | some a => dependencies a | none => [], [], [], []⟩

/-- `reorder_assignments` (ReorderAssignments.cpp:323-353); `own` is `module.module_reference`, `rf` the bound on the
references `resolve_type` may follow. -/
def reorderAssignments (tree : Tree) (own : Name) (rf : Nat) (as : List Assignment) : Res (List Assignment) := do
  let s ← as.foldlM (fun s a => resolveDeps as tree own rf (as.length + 1) a.name s) (initState as)
  if as.length != s.out.length then .throw .lostDefinitions else .ok s.out

end FastBer.Ast
