import Verif.Model.Ast
/-!
# The numbers of ENUMERATED items (X.680 20.3-20.6)
-/
namespace FastBer.Enum.Spec
open FastBer Ast

/-- An item with or without a number. -/
abbrev Item := Name × Option Int

/-- `v` is the number of the item at position `i` of the root, the numbers being `vs`. -/
def RootNumber (root : List Item) (vs : List Int) (i : Nat) (v : Int) : Prop :=
  match root[i]? with
  | some (_, some n) => v = n
  /- X.680 20.3: those without a number get successive integers from 0 on, those of the numbered items left out: it is one of these, -/
  | some (_, none) => 0 ≤ v ∧ (∀ item ∈ root, item.2 ≠ some v) ∧
      /- and the ones below it that are left are those of the items without a number before it. -/
      ∀ u : Int, (0 ≤ u ∧ u < v ∧ ∀ item ∈ root, item.2 ≠ some u) ↔ ∃ (j : Nat) (n : Name), j < i ∧ root[j]? = some (n, none) ∧ vs[j]? = some u
  | none => False

/-- `v` is the number of the item at position `i` behind the extension marker, `root` being the numbers of the root, `vs` those of the
additional items. -/
def AddedNumber (root : List Int) (added : List Item) (vs : List Int) (i : Nat) (v : Int) : Prop :=
  match added[i]? with
  | some (_, some n) => v = n
  /- X.680 20.6: the smallest number that is none of the root and greater than those of the additional items before it. -/
  | some (_, none) => 0 ≤ v ∧ v ∉ root ∧ (∀ j < i, ∀ u, vs[j]? = some u → u < v) ∧
      ∀ w : Int, 0 ≤ w → w ∉ root → (∀ j < i, ∀ u, vs[j]? = some u → u < w) → v ≤ w
  | none => False

/-- `vs` are the numbers of the items of the root and `ws` those of the additional items. -/
structure Numbers (root added : List Item) (vs ws : List Int) : Prop where
  rootLength : vs.length = root.length
  addedLength : ws.length = added.length
  root : ∀ (i : Nat) v, vs[i]? = some v → RootNumber root vs i v
  added : ∀ (i : Nat) v, ws[i]? = some v → AddedNumber vs added ws i v

end FastBer.Enum.Spec
