import Verif.Model.LibChoice
import Verif.Spec.SchemaRead
/-! # Specification of the library's CHOICE -/
namespace FastBer.LibChoice
open FastBer Spec

/-- The object `o` holds value `x` in alternative `i`, and its X.690 encoding is `e` (8.13: the encoding of the chosen
alternative, or an element with the CHOICE's own tag around it). -/
def Rep (c : LibChoice) (o : Obj) (i : Nat) (x : Val) (e : Bytes) : Prop :=
  ∃ t o' e', c.alts[i]? = some t ∧ o = .alt i o' ∧ t.Rep o' x e' ∧
    e = match c.id with
      | .untagged _ => e'
      | .tagged id => tagged id .constructed e'

/-- The alternatives are types the compiler or the library can emit; there is one; the CHOICE's own tag is a tag. -/
def WF (c : LibChoice) : Prop :=
  c.alts ≠ [] ∧ (∀ t ∈ c.alts, t.WF) ∧ match c.id with
    | .tagged id => identOk id
    | .untagged _ => True

/-- The element that carries the alternative: the input element itself, or the first element inside it. -/
def Carries (c : LibChoice) (v u : BerView) : Prop :=
  u.valid = true ∧ match c.id with
    | .untagged _ => u = v
    | .tagged id => ∃ w bs, Matches v id .constructed w ∧ w.content = .ok bs ∧ BerView.parse bs = .ok u

/-- Alternative `n` is the first one that has the identifier `i`. -/
def First (c : LibChoice) (i : Id) (n : Nat) (t : Ty) : Prop :=
  c.alts[n]? = some t ∧ i ∈ t.outer ∧ ∀ m t', m < n → c.alts[m]? = some t' → i ∉ t'.outer

/-- The universal types ANY knows, by tag number. -/
def anyKind (r t : Bytes → Bytes → Exec Bool) (tag : Int) : Option Leaf :=
  if tag = 1 then some .bool
  else if tag = 2 then some .int
  else if tag = 5 then some .null
  else if tag = 6 then some .oid
  else if tag = 9 then some (.real r)
  else if tag = 3 ∨ tag = 4 ∨ tag = 26 ∨ tag = 29 then some .str
  else if tag = 23 ∨ tag = 24 then some (.time t)
  else none

/-- Which of the 16 alternatives of ANY a value comes back in: DateTime, Duration and GeneralizedTime come back as Date,
TimeOfDay and UTCTime as Time. -/
def anyReturns (i : Nat) : Nat :=
  if 3 ≤ i ∧ i ≤ 6 then 3 else if 12 ≤ i ∧ i ≤ 14 then 12 else i

end FastBer.LibChoice
