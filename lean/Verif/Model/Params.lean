import Verif.Model.Resolve
/-!
# Parameterized types

Models `src/compiler/Parameters.cpp` and the parser actions that build the two lists of parameters.
-/
namespace FastBer.Ast

/-- `ParameterSeries` (asn_compiler.yacc:614-618): the parameters `p :: ps` of a template, as written, in the order in
which the rule sees them: left recursion, `push_back` after what is there. -/
def parsedFormals (ps : List Param) : List Param := ps.foldl (fun acc p => acc ++ [p]) []

/-- `ActualParameterList` (asn_compiler.yacc:925-929): the arguments of a reference, as written.  Right recursion: the rest
of the list is parsed first, and `push_back` puts the first argument behind it. -/
def parsedActuals : List AType → List AType
  | [] => []
  | a :: as => parsedActuals as ++ [a]

/-- `ParameterTypes` (Parameters.hpp), filled by `new_parameters[parameters[i].reference] = defined.parameters[i]`
(Parameters.cpp:173-177); a later entry replaces an earlier one of the same name. -/
def paramTypes (ps : List Param) (args : List AType) : List (Name × AType) := ((ps.map (·.reference)).zip args).reverse

/-- `parameters.find(reference)`.  (Parameters.cpp:73-99) -/
def findParam (σ : List (Name × AType)) (n : Name) : Option AType := (σ.find? (·.1 == n)).map (·.2)

mutual
/-- `resolve_parameterized` (Parameters.cpp:4-99). -/
def substParams (σ : List (Name × AType)) : AType → Res AType
  | .leaf k => .ok (.leaf k)
  | .objField m c fs => .ok (.objField m c fs)
  | .choice alts s => do
    let alts ← substParamsAlts σ alts
    .ok (.choice alts s)
  | .sequence cs e => do
    let cs ← substParamsComps σ cs
    .ok (.sequence cs e)
  | .set cs e => do
    let cs ← substParamsComps σ cs
    .ok (.set cs e)
  | .seqOf n t s => do
    let t ← substParams σ t
    .ok (.seqOf n t s)
  | .setOf n t s => do
    let t ← substParams σ t
    .ok (.setOf n t s)
  | .prefixed c n m t => do
    let t ← substParams σ t
    .ok (.prefixed c n m t)
  | .defined m ref args =>
    if args.length > 0 then .throw .other
    else if m.isNone then
      match findParam σ ref with
      | some a => .ok a
      | none => .ok (.defined m ref args)
    else .ok (.defined m ref args)
/-- The loop over the alternatives (Parameters.cpp:7-10). -/
def substParamsAlts (σ : List (Name × AType)) : List Named → Res (List Named)
  | [] => .ok []
  | .mk n t :: as => do
    let t ← substParams σ t
    let as ← substParamsAlts σ as
    .ok (.mk n t :: as)
/-- The loop over the components (Parameters.cpp:15-18, 28-31): neither COMPONENTS OF nor the default value is looked at. -/
def substParamsComps (σ : List (Name × AType)) : List Comp → Res (List Comp)
  | [] => .ok []
  | .mk n t o d co s :: cs => do
    let t ← substParams σ t
    let cs ← substParamsComps σ cs
    .ok (.mk n t o d co s :: cs)
end

/-- The reference to a template (Parameters.cpp:160-182).  `mod` is `module.module_reference`. -/
def instantiate (tree : Tree) (mod : Name) (m : Option Name) (ref : Name) (args : List AType) : Res AType := do
  let wm ← findModule tree (m.getD mod)
  let a ← findAssignment wm ref
  if a.params.length != args.length then .throw .other
  else match a.body with
    | .type t => substParams (paramTypes a.params args) t
    | _ => .throw .notAType

mutual
/-- `parameterized_to_concrete` (Parameters.cpp:101-189). -/
def toConcrete (tree : Tree) (mod : Name) : AType → Res AType
  | .leaf k => .ok (.leaf k)
  | .objField m c fs => .ok (.objField m c fs)
  | .choice alts s => do
    let alts ← toConcreteAlts tree mod alts
    .ok (.choice alts s)
  | .sequence cs e => do
    let cs ← toConcreteComps tree mod cs
    .ok (.sequence cs e)
  | .set cs e => do
    let cs ← toConcreteComps tree mod cs
    .ok (.set cs e)
  | .seqOf n t s => do
    let t ← toConcrete tree mod t
    .ok (.seqOf n t s)
  | .setOf n t s => do
    let t ← toConcrete tree mod t
    .ok (.setOf n t s)
  | .prefixed c n m t => do
    let t ← toConcrete tree mod t
    .ok (.prefixed c n m t)
  | .defined m ref args => if args.length > 0 then instantiate tree mod m ref args else .ok (.defined m ref args)
/-- The loop over the alternatives (Parameters.cpp:103-106). -/
def toConcreteAlts (tree : Tree) (mod : Name) : List Named → Res (List Named)
  | [] => .ok []
  | .mk n t :: as => do
    let t ← toConcrete tree mod t
    let as ← toConcreteAlts tree mod as
    .ok (.mk n t :: as)
/-- The loop over the components (Parameters.cpp:110-113, 122-125). -/
def toConcreteComps (tree : Tree) (mod : Name) : List Comp → Res (List Comp)
  | [] => .ok []
  | .mk n t o d co s :: cs => do
    let t ← toConcrete tree mod t
    let cs ← toConcreteComps tree mod cs
    .ok (.mk n t o d co s :: cs)
end

/-- One assignment (Parameters.cpp:215-221). -/
def concreteAssignment (tree : Tree) (mod : Name) (a : Assignment) : Res Assignment :=
  match a.body with
  | .type t =>
    if a.params.length = 0 then do
      let t ← toConcrete tree mod t
      .ok { a with body := .type t }
    else .ok a
  | _ => .ok a

/-- `resolve_parameters` and `remove_parameter_templates` (Parameters.cpp:191-226).  The code changes the tree as it goes and
looks up templates in the tree so far; the model looks them up in the original tree.  That is the same: only
assignments without parameters are changed, their names and parameters stay, and `instantiate` uses the body only of an
assignment that has parameters. -/
def resolveParameters (tree : Tree) : Res Tree := do
  let ms ← tree.modules.mapM fun m => do
    let as ← m.assignments.mapM (concreteAssignment tree m.name)
    .ok { m with assignments := as.filter fun a => !(a.params.length > 0) }
  .ok ⟨ms⟩

end FastBer.Ast
