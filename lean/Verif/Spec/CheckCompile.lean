import Verif.Spec.Check
import Verif.Spec.Compilable
/-!
# Checking that the code for a schema is valid C++

`compilable fuel tree` and `defaultsTaken fuel tree p` compute whether a schema is `Compilable` and whether its DEFAULT values are
among those `p`; that the answer `true` is right is proved in `Proofs/CheckCompile.lean`.
-/
namespace FastBer.Ast.Check
open FastBer.Ast FastBer.Ast.Spec

mutual
/-- The type, called `n`, and its parts, with the names of the C++ types for them. -/
def placed : AType → Name → List (Name × AType)
  | .leaf k, n => [(n, .leaf k)]
  | .sequence cs e, n => (n, .sequence cs e) :: placedComps n cs
  | .set cs e, n => (n, .set cs e) :: placedComps n cs
  | .choice as s, n => (n, .choice as s) :: placedAlts as
  | .seqOf m t s, n => (n, .seqOf m t s) :: placed t (n ++ "Contained")
  | .setOf m t s, n => (n, .setOf m t s) :: placed t (n ++ "Contained")
  | .prefixed c i k t, n => (n, .prefixed c i k t) :: placed t n
  | .objField m c fs, n => [(n, .objField m c fs)]
  | .defined m ref ps, n => [(n, .defined m ref ps)]
def placedComps (n : Name) : List Comp → List (Name × AType)
  | [] => []
  | .mk c t _ _ _ _ :: cs => placed t (memberName c n) ++ placedComps n cs
def placedAlts : List Named → List (Name × AType)
  | [] => []
  | .mk a t :: as => placed t (typeName a) ++ placedAlts as
end

/-- The types of the tree, with their names, all pass a test. -/
def everyPlaced (tree : Tree) (p : Module → Name → AType → Bool) : Bool :=
  tree.modules.all fun m => m.assignments.all fun a => match a.body with
    | .type t => (placed t a.name).all fun x => p m x.1 x.2
    | _ => true

/-- The reference, if it is one, is to something already written. -/
def refersBack (own : Name) (modules names : List Name) : AType → Bool
  | .defined m ref _ => if m.getD own = own then names.contains ref else modules.contains (m.getD own)
  | _ => true

/-- The condition `order`, for the assignments after those called `names`. -/
def orderedIn (own : Name) (modules : List Name) : List Name → List Assignment → Bool
  | _, [] => true
  | names, a :: as =>
    (match a.body with
      | .type t => (parts t).all (refersBack own modules names)
      | _ => true) && orderedIn own modules (a.name :: names) as

/-- The condition `order`, for the modules after those called `names`. -/
def ordered : List Name → List Module → Bool
  | _, [] => true
  | names, m :: ms => orderedIn m.name names [] m.assignments && ordered (m.name :: names) ms

/-- The reference, if it is one, is to a class that may be declared later, or to something already written; `base` is what is assigned. -/
def refersForward (tree : Tree) (mod : Module) (modules names : List Name) (base : AType) : AType → Bool
  | .defined m ref ps =>
    ((match base with
      | .defined m' ref' _ => !(m' == m && ref' == ref)
      | _ => true) &&
    (match target tree mod m ref with
      | some (_, .seqOf _ _ _) => false
      | some (_, .setOf _ _ _) => false
      | some (_, .leaf .enumerated) => false
      | _ => true)) || refersBack mod.name modules names (.defined m ref ps)
  | _ => true

/-- The condition `order` of `RCompilable`, for the assignments after those called `names`. -/
def forwardIn (tree : Tree) (mod : Module) (modules : List Name) : List Name → List Assignment → Bool
  | _, [] => true
  | names, a :: as =>
    (match a.body with
      | .type t => (parts t).all (refersForward tree mod modules names (untag t))
      | _ => true) && forwardIn tree mod modules (a.name :: names) as

/-- The condition `order` of `RCompilable`, for the modules after those called `names`. -/
def forward (tree : Tree) : List Name → List Module → Bool
  | _, [] => true
  | names, m :: ms => forwardIn tree m names [] m.assignments && forward tree (m.name :: names) ms

/-- The name does not end in `Values`. -/
def notValues (n : Name) : Bool := !("Values".toList.isSuffixOf n.toList)

/-- Is the type ENUMERATED? -/
def isEnumerated : AType → Bool
  | .leaf k => k == .enumerated
  | _ => false

/-- The conditions of `Compilable` on one type. -/
def compilableType (fuel : Nat) (tree : Tree) (mod : Module) : AType → Bool
  | .prefixed c _ _ _ => c != .universal
  | .defined m ref ps => match core tree fuel mod (.defined m ref ps) with
    | some (_, u) => !(isList u || isEnumerated u) || match target tree mod m ref with
      | some (_, u') => isCore u'
      | none => false
    | none => false
  | .seqOf _ t _ => !isStruct (untag t)
  | .setOf _ t _ => !isStruct (untag t)
  | _ => true

/-- The conditions of `Compilable` on one type and its name. -/
def compilablePlaced (tree : Tree) (mod : Module) (n : Name) : AType → Bool
  | .sequence cs _ => decide (n :: cs.flatMap fun c => declares tree mod c.type (memberName c.name n)).Nodup &&
    cs.all fun c => !isStruct (untag c.type) || typeName c.name != n
  | .set cs _ => decide (n :: cs.flatMap fun c => declares tree mod c.type (memberName c.name n)).Nodup &&
    cs.all fun c => !isStruct (untag c.type) || typeName c.name != n
  | .choice as _ => decide (n :: as.flatMap fun a => declares tree mod a.type (typeName a.name)).Nodup
  | _ => true

/-- Is the assignment that of a class? -/
def isClass : Body → Bool
  | .objectClass _ => true
  | _ => false

/-- `CompilableNames`. -/
def compilableNames (fuel : Nat) (tree : Tree) : Bool :=
  (tree.modules.all fun mod => decide (mod.assignments.flatMap (declaresA tree mod)).Nodup &&
    mod.assignments.all fun a => !isClass a.body && notValues a.name) &&
  every tree (compilableType fuel tree) && (everyField tree fun _ n _ => notValues (typeName n)) && everyPlaced tree (compilablePlaced tree)

/-- `Compilable`. -/
def compilable (fuel : Nat) (tree : Tree) : Bool := compilableNames fuel tree && ordered [] tree.modules

/-- `RCompilable`. -/
def compilableForward (fuel : Nat) (tree : Tree) : Bool := compilableNames fuel tree && forward tree [] tree.modules

/-- The DEFAULT values, for the simple types they are of, all pass a test. -/
def defaultsTaken (fuel : Nat) (tree : Tree) (p : Builtin → Value → Bool) : Bool :=
  every tree fun mod t =>
    (match t with
      | .sequence cs _ => cs
      | .set cs _ => cs
      | _ => []).all fun c => c.optional || match c.default with
        | none => true
        | some v => match core tree fuel mod c.type with
          | some (_, .leaf k) => p k v
          | _ => false

end FastBer.Ast.Check
