import Verif.Spec.Supported
import Verif.Spec.Legal
/-!
# Checking a schema

`supported fuel tree`, `legal fuel tree`, `noBareChoice fuel tree` compute whether a schema is `Supported`, `Legal`, `NoBareChoice`; that
the answer `true` is right is proved in `Proofs/Check.lean`.  (The answer `false` may be wrong if `fuel` is small.)
-/
namespace FastBer.Ast.Check
open FastBer.Ast FastBer.Ast.Spec

mutual
/-- The type and its parts. -/
def parts : AType → List AType
  | .leaf k => [.leaf k]
  | .sequence cs e => .sequence cs e :: compParts cs
  | .set cs e => .set cs e :: compParts cs
  | .choice as s => .choice as s :: altParts as
  | .seqOf n t s => .seqOf n t s :: parts t
  | .setOf n t s => .setOf n t s :: parts t
  | .prefixed c n k t => .prefixed c n k t :: parts t
  | .objField m c fs => [.objField m c fs]
  | .defined m ref ps => [.defined m ref ps]
def compParts : List Comp → List AType
  | [] => []
  | .mk _ t _ _ _ _ :: cs => parts t ++ compParts cs
def altParts : List Named → List AType
  | [] => []
  | .mk _ t :: as => parts t ++ altParts as
end

/-- Components or alternatives written in a type. -/
def fields : AType → List (Name × AType)
  | .sequence cs _ => cs.map fun c => (c.name, c.type)
  | .set cs _ => cs.map fun c => (c.name, c.type)
  | .choice as _ => as.map fun a => (a.name, a.type)
  | _ => []

/-- The types of the tree all pass a test. -/
def every (tree : Tree) (p : Module → AType → Bool) : Bool :=
  tree.modules.all fun m => m.assignments.all fun a => match a.body with
    | .type t => (parts t).all (p m)
    | _ => true

/-- The components and alternatives all pass a test. -/
def everyField (tree : Tree) (p : Module → Name → AType → Bool) : Bool :=
  every tree fun m t => (fields t).all fun f => p m f.1 f.2

/-- Is the type an untagged CHOICE or ANY? -/
def untagged (tree : Tree) : Nat → Module → AType → Option Bool
  | 0, _, _ => none
  | f + 1, mod, t => match t with
    | .choice _ _ => some true
    | .leaf k => some (k == .any)
    | .defined m ref _ => match target tree mod m ref with
      | some (wm, u) => untagged tree f wm u
      | none => some false
    | _ => some false

/-- Is a tag with this keyword in front of the type explicit? -/
def explicit (tree : Tree) (f : Nat) (mod : Module) (t : AType) : TagMode → Option Bool
  | .explicit_ => some true
  | .implicit => some false
  | .automatic => if mod.tagging = .explicit_ then some true else untagged tree f mod t

/-- One more tag. -/
def addTag (tag : Tag) : Option Bool → Option (List Tag) → Option (List Tag)
  | some true, some ts => some (tag :: ts)
  | some false, some (_ :: ts) => some (tag :: ts)
  | _, _ => none

/-- The tags of the type itself. -/
def ownTags (tree : Tree) : Nat → Module → AType → Option (List Tag)
  | 0, _, _ => none
  | f + 1, mod, t => match t with
    | .leaf k => match universalNumber k with
      | some n => some [(.universal, n)]
      | none => none
    | .sequence _ _ => some [(.universal, 16)]
    | .seqOf _ _ _ => some [(.universal, 16)]
    | .set _ _ => some [(.universal, 17)]
    | .setOf _ _ _ => some [(.universal, 17)]
    | .choice _ _ => some []
    | .prefixed c n k t' => addTag (c, n) (explicit tree f mod t' k) (ownTags tree f mod t')
    | .objField _ _ _ => none
    | .defined m ref _ => match target tree mod m ref with
      | some (wm, u) => ownTags tree f wm u
      | none => none

/-- The type without tags and references. -/
def core (tree : Tree) : Nat → Module → AType → Option (Module × AType)
  | 0, _, _ => none
  | f + 1, mod, t => match t with
    | .prefixed _ _ _ t' => core tree f mod t'
    | .defined m ref _ => match target tree mod m ref with
      | some (wm, u) => core tree f wm u
      | none => none
    | t => some (mod, t)

/-- `Begins`. -/
def begins (tree : Tree) : Nat → Module → AType → Bool
  | 0, _, _ => false
  | f + 1, mod, t => match t with
    | .leaf k => known k
    | .choice as _ => !as.isEmpty && (mod.tagging == .automatic || as.all fun a => begins tree f mod a.type)
    | .objField _ _ _ => false
    | .defined m ref _ => match target tree mod m ref with
      | some (wm, u) => begins tree f wm u
      | none => false
    | _ => true

/-- `TagSafe`. -/
def tagSafe (tree : Tree) : Nat → Module → AType → Bool
  | 0, _, _ => false
  | f + 1, mod, t => match t with
    | .leaf k => known k
    | .choice as s => begins tree f mod (.choice as s)
    | .prefixed _ _ k t' => tagSafe tree f mod t' && match ownTags tree f mod t' with
      | some (_ :: ts) => (k != .automatic || mod.tagging != .automatic) && match explicit tree f mod t' k with
        | some true => ts.isEmpty
        | some false => true
        | none => false
      | some [] => k == .automatic && mod.tagging == .implicit
      | none => false
    | .objField _ _ _ => false
    | .defined m ref _ => match target tree mod m ref with
      | some (wm, u) => tagSafe tree f wm u
      | none => false
    | _ => true

/-- Is the type a reference? -/
def isReference : AType → Bool
  | .defined _ _ _ => true
  | _ => false

/-- `Lost`. -/
def lost (tree : Tree) : Nat → Module → AType → Option Bool
  | 0, _, _ => none
  | f + 1, mod, t => match t with
    | .prefixed _ _ _ t' => if isReference (untag t') = true then
        match core tree f mod t' with
        | some (_, u) => some (isStruct u)
        | none => none
      else some false
    | .defined m ref _ => match target tree mod m ref with
      | some (wm, u) => lost tree f wm u
      | none => some false
    | _ => some false

/-- `RefOk`. -/
def refOk (tree : Tree) (cur : Name) : Nat → Name → Name → Bool
  | 0, _, _ => false
  | f + 1, mod, ref => match lookup tree mod ref with
    | some (.type t) => match t with
      | .defined m r _ => refOk tree cur f (m.getD mod) r
      | .prefixed _ _ _ (.defined m r _) => m.getD cur == m.getD mod && refOk tree cur f (m.getD mod) r
      | _ => true
    | _ => false

/-- Tags an encoding of the type can begin with. -/
def outermost (tree : Tree) : Nat → Module → AType → Option (List Tag)
  | 0, _, _ => none
  | f + 1, mod, t => match t with
    | .leaf k => match universalNumber k with
      | some n => some [(.universal, n)]
      | none => some []
    | .sequence _ _ => some [(.universal, 16)]
    | .seqOf _ _ _ => some [(.universal, 16)]
    | .set _ _ => some [(.universal, 17)]
    | .setOf _ _ _ => some [(.universal, 17)]
    | .prefixed c n _ _ => some [(c, n)]
    | .choice as _ =>
      if mod.tagging = .automatic ∧ as.all (fun a => !hasTag a.type) = true then
        some ((List.range as.length).map fun i => (Cls.contextSpecific, i))
      else (as.mapM fun a => outermost tree f mod a.type).map List.flatten
    | .objField _ _ _ => some []
    | .defined m ref _ => match target tree mod m ref with
      | some (wm, u) => outermost tree f wm u
      | none => some []

/-- The types cannot begin with the same tag. -/
def apart (tree : Tree) (f : Nat) (mod : Module) (t u : AType) : Bool :=
  match outermost tree f mod t, outermost tree f mod u with
  | some l, some l' => l.all fun x => !l'.contains x
  | _, _ => false

/-- The types cannot begin with the same tag number. -/
def numbersApart (tree : Tree) (f : Nat) (mod : Module) (t u : AType) : Bool :=
  match outermost tree f mod t, outermost tree f mod u with
  | some l, some l' => l.all fun x => l'.all fun y => x.2 != y.2
  | _, _ => false

/-- An optional component of this type can be told from those that may follow it. -/
def ahead (tree : Tree) (f : Nat) (mod : Module) (t : AType) : List Slot → Bool
  | [] => true
  | s :: ss => apart tree f mod t s.type && (!s.mayBeAbsent || ahead tree f mod t ss)

/-- `SlotsDistinct`. -/
def slotsDistinct (tree : Tree) (f : Nat) (mod : Module) : List Slot → Bool
  | [] => true
  | s :: ss => (!s.mayBeAbsent || ahead tree f mod s.type ss) && slotsDistinct tree f mod ss

/-- The test holds between every element of the list and every later one. -/
def pairwise {α : Type} (p : α → α → Bool) : List α → Bool
  | [] => true
  | a :: as => as.all (p a) && pairwise p as

/-- The name does not end in `Contained`, and is not empty. -/
def goodName (n : Name) : Bool := !(n == "") && !("Contained".toList.isSuffixOf n.toList)

/-- The conditions of `Supported` on one type. -/
def supportedType (fuel : Nat) (tree : Tree) (mod : Module) (t : AType) : Bool :=
  tagSafe tree fuel mod t && match t with
  | .defined m ref ps =>
    refOk tree mod.name fuel (m.getD mod.name) ref &&
      (match core tree fuel mod (.defined m ref ps) with
        | some (_, u) => !isList u || m.getD mod.name == mod.name
        | none => false)
  | .prefixed _ _ _ (.prefixed _ _ _ t') => !isReference (untag t')
  | .seqOf _ t' _ => lost tree fuel mod t' == some false
  | .setOf _ t' _ => lost tree fuel mod t' == some false
  | .sequence cs _ => mod.tagging != .automatic || cs.all fun c => !c.optional && c.default.isNone
  | _ => true

/-- The conditions of `Supported` on one component or alternative. -/
def supportedField (fuel : Nat) (tree : Tree) (mod : Module) (n : Name) (t : AType) : Bool :=
  goodName (typeName n) &&
  (!isList (untag t) || mod.assignments.all fun a => a.name != typeName n && a.name != typeName n ++ "_") &&
  (mod.tagging != .automatic || (!hasTag t &&
    (match ownTags tree fuel mod t with
      | some ts => ts.length ≤ 1
      | none => false) &&
    (!isReference t || match core tree fuel mod t with
      | some (_, u) => !isStruct u
      | none => false)))

/-- `Supported`. -/
def supported (fuel : Nat) (tree : Tree) : Bool :=
  pairwise (fun a b => a.name != b.name) tree.modules &&
  (tree.modules.all fun mod => pairwise (fun a b => a.name != b.name) mod.assignments && mod.assignments.all fun a => goodName a.name) &&
  every tree (supportedType fuel tree) && everyField tree (supportedField fuel tree)

/-- The conditions of `Legal` on one type. -/
def legalType (fuel : Nat) (tree : Tree) (mod : Module) : AType → Bool
  | .sequence cs _ => slotsDistinct tree fuel mod (slots mod cs) && cs.length < 2 ^ 63
  | .set cs _ => pairwise (fun a b => apart tree fuel mod a.type b.type) (slots mod cs) && cs.length < 2 ^ 63
  | .choice as _ => pairwise (numbersApart tree fuel mod) (choices mod as) && as.length < 2 ^ 63
  | .prefixed _ n _ _ => n < 2 ^ 63
  | .leaf (.charString n) => n ≤ 30
  | _ => true

/-- `Legal`. -/
def legal (fuel : Nat) (tree : Tree) : Bool := every tree (legalType fuel tree)

/-- `NoBareChoice`. -/
def noBareChoice (fuel : Nat) (tree : Tree) : Bool :=
  every tree fun mod t => match t with
    | .sequence cs _ => (slots mod cs).all fun s => s.mayBeAbsent || match ownTags tree fuel mod s.type with
      | some (_ :: _) => true
      | _ => false
    | _ => true

end FastBer.Ast.Check
