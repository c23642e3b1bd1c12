import Verif.Model.Ast
/-!
# The tags X.680 gives a type

`Tags tree mod t ts`: an encoding of a value of type `t`, written in module `mod`, carries the tags `ts`,
outermost first.  A CHOICE without a tag has the tags of any of its alternatives, so `Tags` is a relation.
-/
namespace FastBer.Ast.Spec
open FastBer.Ast

/-- A tag: class and number. -/
abbrev Tag := Cls × Nat

/-- The module and type a type reference written in module `mod` leads to. -/
def target (tree : Tree) (mod : Module) (m : Option Name) (ref : Name) : Option (Module × AType) := do
  let wm ← tree.modules.find? (·.name == m.getD mod.name)
  let a ← wm.assignments.find? (·.name == ref)
  match a.body with
  | .type t => some (wm, t)
  | _ => none

/-- X.680 8.4, table 1: numbers of the universal class.  ANY (X.208) has no tag. -/
def universalNumber : Builtin → Option Nat
  | .any => none
  | .boolean => some 1
  | .integer => some 2
  | .bitString => some 3
  | .octetString => some 4
  | .null => some 5
  | .objectIdentifier => some 6
  | .objectDescriptor => some 7
  | .external => some 8
  | .instanceOf => some 8
  | .real => some 9
  | .enumerated => some 10
  | .embeddedPDV => some 11
  | .relativeOID => some 13
  | .time => some 14
  | .t61String => some 20
  | .utcTime => some 23
  | .generalizedTime => some 24
  | .charString n => some n
  | .date => some 31
  | .timeOfDay => some 32
  | .dateTime => some 33
  | .duration => some 34
  | .iri => some 35
  | .relativeIRI => some 36

/-- The type is an untagged CHOICE or ANY, or a reference to one. -/
inductive Untagged (tree : Tree) : Module → AType → Prop where
  | choice (mod : Module) (as : List Named) (s : Storage) : Untagged tree mod (.choice as s)
  | any (mod : Module) : Untagged tree mod (.leaf .any)
  | reference {mod : Module} {m : Option Name} {ref : Name} {ps : List AType} {wm : Module} {t : AType} :
      target tree mod m ref = some (wm, t) → Untagged tree wm t → Untagged tree mod (.defined m ref ps)

/-- X.680 31.2.7: is the tag in front of `t` explicit?  `TagMode.automatic` on a tag means that neither
keyword is written. -/
inductive ExplicitTag (tree : Tree) (mod : Module) (t : AType) : TagMode → Prop where
  | keyword : ExplicitTag tree mod t .explicit_
  | environment : mod.tagging = .explicit_ → ExplicitTag tree mod t .automatic
  | untagged : Untagged tree mod t → ExplicitTag tree mod t .automatic

/-- No alternative is written with a tag. -/
def NoneTagged (as : List Named) : Prop := ∀ a ∈ as, ∀ c n k t, a.type ≠ .prefixed c n k t

/-- X.680 29.2-29.5: automatic tagging of a CHOICE takes place. -/
def AutomaticallyTagged (mod : Module) (as : List Named) : Prop := mod.tagging = .automatic ∧ NoneTagged as

/-- The tags of a type. -/
inductive Tags (tree : Tree) : Module → AType → List Tag → Prop where
  | leaf {mod : Module} {k : Builtin} {n : Nat} : universalNumber k = some n → Tags tree mod (.leaf k) [(.universal, n)]
  | sequence (mod : Module) (cs : List Comp) (e : Bool) : Tags tree mod (.sequence cs e) [(.universal, 16)]
  | seqOf (mod : Module) (n : Option Name) (t : AType) (s : Storage) : Tags tree mod (.seqOf n t s) [(.universal, 16)]
  | set (mod : Module) (cs : List Comp) (e : Bool) : Tags tree mod (.set cs e) [(.universal, 17)]
  | setOf (mod : Module) (n : Option Name) (t : AType) (s : Storage) : Tags tree mod (.setOf n t s) [(.universal, 17)]
  /-- 31.2.1: an explicit tag goes around the tags of the type. -/
  | explicit_ {mod : Module} {c : Cls} {n : Nat} {k : TagMode} {t : AType} {ts : List Tag} :
      ExplicitTag tree mod t k → Tags tree mod t ts → Tags tree mod (.prefixed c n k t) ((c, n) :: ts)
  /-- 31.2.1: an implicit tag replaces the outermost tag of the type. -/
  | implicit {mod : Module} {c : Cls} {n : Nat} {k : TagMode} {t : AType} {x : Tag} {ts : List Tag} :
      ¬ ExplicitTag tree mod t k → ¬ Untagged tree mod t → Tags tree mod t (x :: ts) →
      Tags tree mod (.prefixed c n k t) ((c, n) :: ts)
  /-- An untagged CHOICE: the tags of an alternative. -/
  | choice {mod : Module} {as : List Named} {s : Storage} {a : Named} {ts : List Tag} :
      ¬ AutomaticallyTagged mod as → a ∈ as → Tags tree mod a.type ts → Tags tree mod (.choice as s) ts
  /-- 29.5: automatic tagging puts `[i]` in front of alternative `i`. -/
  | automaticChoice {mod : Module} {as : List Named} {s : Storage} {i : Nat} {a : Named} {ts : List Tag} :
      AutomaticallyTagged mod as → as[i]? = some a →
      Tags tree mod (.prefixed .contextSpecific i .automatic a.type) ts → Tags tree mod (.choice as s) ts
  | reference {mod : Module} {m : Option Name} {ref : Name} {ps : List AType} {wm : Module} {t : AType} {ts : List Tag} :
      target tree mod m ref = some (wm, t) → Tags tree wm t ts → Tags tree mod (.defined m ref ps) ts

/-- The outermost tags encodings of `t` can have. -/
inductive Outermost (tree : Tree) : Module → AType → Tag → Prop where
  | leaf {mod : Module} {k : Builtin} {n : Nat} : universalNumber k = some n → Outermost tree mod (.leaf k) (.universal, n)
  | sequence (mod : Module) (cs : List Comp) (e : Bool) : Outermost tree mod (.sequence cs e) (.universal, 16)
  | seqOf (mod : Module) (n : Option Name) (t : AType) (s : Storage) : Outermost tree mod (.seqOf n t s) (.universal, 16)
  | set (mod : Module) (cs : List Comp) (e : Bool) : Outermost tree mod (.set cs e) (.universal, 17)
  | setOf (mod : Module) (n : Option Name) (t : AType) (s : Storage) : Outermost tree mod (.setOf n t s) (.universal, 17)
  | prefixed (mod : Module) (c : Cls) (n : Nat) (k : TagMode) (t : AType) : Outermost tree mod (.prefixed c n k t) (c, n)
  | choice {mod : Module} {as : List Named} {s : Storage} {a : Named} {tag : Tag} :
      ¬ AutomaticallyTagged mod as → a ∈ as → Outermost tree mod a.type tag → Outermost tree mod (.choice as s) tag
  | automaticChoice {mod : Module} {as : List Named} {s : Storage} {i : Nat} :
      AutomaticallyTagged mod as → i < as.length → Outermost tree mod (.choice as s) (.contextSpecific, i)
  | reference {mod : Module} {m : Option Name} {ref : Name} {ps : List AType} {wm : Module} {t : AType} {tag : Tag} :
      target tree mod m ref = some (wm, t) → Outermost tree wm t tag → Outermost tree mod (.defined m ref ps) tag

/-- `Outermost` is about `Tags`: every list of tags of a type begins with an outermost tag of it. -/
theorem Tags.outermost {tree : Tree} {mod : Module} {t : AType} {tag : Tag} {ts : List Tag}
    (h : Tags tree mod t (tag :: ts)) : Outermost tree mod t tag := by
  generalize hl : tag :: ts = l at h
  induction h generalizing tag ts with
  | leaf h => cases hl; exact .leaf h
  | sequence => cases hl; exact .sequence ..
  | seqOf => cases hl; exact .seqOf ..
  | set => cases hl; exact .set ..
  | setOf => cases hl; exact .setOf ..
  | explicit_ => cases hl; exact .prefixed ..
  | implicit => cases hl; exact .prefixed ..
  | choice h1 h2 _ ih => exact .choice h1 h2 (ih hl)
  | @automaticChoice _ _ _ i _ _ h1 h2 h3 _ =>
    have : tag = (.contextSpecific, i) := by
      cases h3 <;> (cases hl; rfl)
    subst this
    exact .automaticChoice h1 (List.getElem?_eq_some_iff.1 h2).1
  | reference h1 _ ih => exact .reference h1 (ih hl)

/-- No type has an empty list of tags. -/
theorem Tags.ne_nil {tree : Tree} {mod : Module} {t : AType} {ts : List Tag} (h : Tags tree mod t ts) : ts ≠ [] := by
  induction h with
  | leaf | sequence | seqOf | set | setOf | explicit_ | implicit => simp
  | choice _ _ _ ih => exact ih
  | automaticChoice _ _ _ ih => exact ih
  | reference _ _ ih => exact ih

end FastBer.Ast.Spec
