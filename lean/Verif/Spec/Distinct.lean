import Verif.Spec.Tags
/-!
# When X.680 requires tags to be distinct
-/
namespace FastBer.Ast.Spec
open FastBer.Ast

/-- Encodings of the two types can begin with the same tag. -/
def Clash (tree : Tree) (mod : Module) (t u : AType) : Prop := ∃ tag, Outermost tree mod t tag ∧ Outermost tree mod u tag

/-- X.680 27.3 (SET): no two components can begin with the same tag. -/
def SetDistinct (tree : Tree) (mod : Module) (cs : List Comp) : Prop :=
  ∀ (i j : Nat) (a b : Comp), i ≠ j → cs[i]? = some a → cs[j]? = some b → ¬ Clash tree mod a.type b.type

/-- X.680 25.6 (SEQUENCE): a component does not clash with a later one, if it and all components between them
may be absent. -/
def SequenceDistinct (tree : Tree) (mod : Module) (cs : List Comp) : Prop :=
  ∀ (i j : Nat) (a b : Comp), i < j → cs[i]? = some a → cs[j]? = some b →
    (∀ (k : Nat) (c : Comp), i ≤ k → k < j → cs[k]? = some c → c.optional = true ∨ c.default.isSome) →
    ¬ Clash tree mod a.type b.type

/-- X.680 29.3 (CHOICE): no two alternatives can begin with the same tag. -/
def ChoiceDistinct (tree : Tree) (mod : Module) (as : List Named) : Prop :=
  ∀ (i j : Nat) (a b : Named), i ≠ j → as[i]? = some a → as[j]? = some b → ¬ Clash tree mod a.type b.type

end FastBer.Ast.Spec
