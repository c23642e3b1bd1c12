import Verif.Model.Ast
/-!
# What a type reference stands for

A reference `ref`, written in module `mod` (or qualified with it), stands for the type its assignment
gives; if that is again a reference, for what that one stands for *in the module where it is written*.
-/
namespace FastBer.Ast.Spec
open FastBer.Ast

/-- The assignment a reference leads to: the module of that name, in it the assignment of that name. -/
def lookup (tree : Tree) (mod ref : Name) : Option Body :=
  (tree.modules.find? (·.name == mod)).bind fun m => (m.assignments.find? (·.name == ref)).map (·.body)

/-- The type is a reference, or a tagged reference, to `ref` in module `mod`. -/
inductive RefersTo (here : Name) : AType → Name → Name → Prop where
  | direct (m : Option Name) (ref : Name) (ps : List AType) :
      RefersTo here (.defined m ref ps) (m.getD here) ref
  | tagged (c : Cls) (n : Nat) (k : TagMode) (m : Option Name) (ref : Name) (ps : List AType) :
      RefersTo here (.prefixed c n k (.defined m ref ps)) (m.getD here) ref

/-- `Next tree (mod, ref) (mod', ref')`: what `ref` of `mod` stands for is defined through `ref'` of `mod'`. -/
def Next (tree : Tree) (p q : Name × Name) : Prop :=
  ∃ t, lookup tree p.1 p.2 = some (.type t) ∧ RefersTo p.1 t q.1 q.2

/-- `ref` of module `mod` stands for type `t`, to be read in module `mod'`; `n` is the name of the
assignment that gave it. -/
inductive StandsFor (tree : Tree) : Name → Name → Name → AType → Name → Prop where
  | here {mod ref : Name} {t : AType} :
      lookup tree mod ref = some (.type t) → (∀ m r, ¬ RefersTo mod t m r) →
      StandsFor tree mod ref ref t mod
  | alias {mod ref : Name} {m : Option Name} {r : Name} {ps : List AType} {n mod' : Name} {t : AType} :
      lookup tree mod ref = some (.type (.defined m r ps)) →
      StandsFor tree (m.getD mod) r n t mod' → StandsFor tree mod ref n t mod'
  | tagged {mod ref : Name} {c : Cls} {k : Nat} {tm : TagMode} {m : Option Name} {r : Name}
      {ps : List AType} {n mod' : Name} {t : AType} :
      lookup tree mod ref = some (.type (.prefixed c k tm (.defined m r ps))) →
      StandsFor tree (m.getD mod) r n t mod' → StandsFor tree mod ref ref (.prefixed c k tm t) mod'

/-- The chain of references from `p` never ends. -/
def Endless (tree : Tree) (p : Name × Name) : Prop :=
  ∃ f : Nat → Name × Name, f 0 = p ∧ ∀ i, Next tree (f i) (f (i + 1))

/-- The type without the tags written in front of it. -/
def untag : AType → AType
  | .prefixed _ _ _ t => untag t
  | t => t

/-- The type `t`, called `n` and written in module `here`, stands for `t'` of module `mod'`; tags written
in front of `t` do not matter. -/
inductive TypeStandsFor (tree : Tree) (here : Name) (n : Name) (t : AType) : Name → AType → Name → Prop where
  | reference {m : Option Name} {ref : Name} {ps : List AType} {n' mod' : Name} {t' : AType} :
      untag t = .defined m ref ps → StandsFor tree (m.getD here) ref n' t' mod' →
      TypeStandsFor tree here n t n' t' mod'
  | itself : (∀ m ref ps, untag t ≠ .defined m ref ps) → (∃ m ∈ tree.modules, m.name = here) →
      TypeStandsFor tree here n t n (untag t) here

/-- Finding out what the type `t`, written in module `here`, stands for never ends. -/
def TypeEndless (tree : Tree) (here : Name) (t : AType) : Prop :=
  ∃ m ref ps, untag t = .defined m ref ps ∧ Endless tree (m.getD here, ref)

end FastBer.Ast.Spec
