import Verif.Spec.Encoding
/-!
# Schemas whose encodings can be told apart
-/
namespace FastBer.Ast.Spec
open FastBer.Ast

/-- X.680 25.6 (SEQUENCE): a component does not begin like a later one, if it and all components between them may be absent. -/
def SlotsDistinct (tree : Tree) (mod : Module) (ss : List Slot) : Prop :=
  ∀ (i j : Nat) (a b : Slot), i < j → ss[i]? = some a → ss[j]? = some b →
    (∀ (k : Nat) (c : Slot), i ≤ k → k < j → ss[k]? = some c → c.mayBeAbsent = true) → ¬ Clash tree mod a.type b.type

/-- X.680 27.3 (SET): no two components begin alike. -/
def SetSlotsDistinct (tree : Tree) (mod : Module) (ss : List Slot) : Prop :=
  ∀ (i j : Nat) (a b : Slot), i < j → ss[i]? = some a → ss[j]? = some b → ¬ Clash tree mod a.type b.type

/-- X.680 29.3 (CHOICE), strengthened: no two alternatives can begin with the same tag number, whatever the class. -/
def NumbersDistinct (tree : Tree) (mod : Module) (ts : List AType) : Prop :=
  ∀ (i j : Nat) (a b : AType) (x y : Tag), i < j → ts[i]? = some a → ts[j]? = some b →
    Outermost tree mod a x → Outermost tree mod b y → x.2 ≠ y.2

/-- Rules of X.680 on tags, for every type of the schema, and the limits of the library. -/
structure Legal (tree : Tree) : Prop where
  sequences : ∀ mod cs e, Occurs tree mod (.sequence cs e) → SlotsDistinct tree mod (slots mod cs)
  sets : ∀ mod cs e, Occurs tree mod (.set cs e) → SetSlotsDistinct tree mod (slots mod cs)
  /-- (The library's CHOICE decoder does not look at the class of a tag, see C33.) -/
  choices : ∀ mod as s, Occurs tree mod (.choice as s) → NumbersDistinct tree mod (choices mod as)
  /-- Tag numbers are less than 2^63. -/
  numbers : ∀ mod c n k t, Occurs tree mod (.prefixed c n k t) → n < 2 ^ 63
  /-- So are positions of components. -/
  sequenceSize : ∀ mod cs e, Occurs tree mod (.sequence cs e) → cs.length < 2 ^ 63
  setSize : ∀ mod cs e, Occurs tree mod (.set cs e) → cs.length < 2 ^ 63
  choiceSize : ∀ mod as s, Occurs tree mod (.choice as s) → as.length < 2 ^ 63
  /-- Universal tag numbers of character strings. -/
  strings : ∀ mod n, Occurs tree mod (.leaf (.charString n)) → n ≤ 30

/-- No mandatory component of a SEQUENCE is an untagged CHOICE (whose generated decoder does not check that there is an
element at all, see C44). -/
def NoBareChoice (tree : Tree) : Prop :=
  ∀ mod cs e s, Occurs tree mod (.sequence cs e) → s ∈ slots mod cs → s.mayBeAbsent = false → ¬ OwnTags tree mod s.type []

end FastBer.Ast.Spec
