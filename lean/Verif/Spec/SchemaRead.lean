import Verif.Spec.Schema
/-!
# Specification of reading: when a BER element on the wire stands for a value of a type

`Ty.Reads t v x`: the element `v` is an encoding of the abstract value `x` of type `t`, in any of the
forms BER allows (long-form lengths, padded tag numbers, components of a SET in any order).  Nothing
here mentions the generated `decode` functions; only the element reader `BerView.parse` (properties
C06-C11) is used.
-/
namespace FastBer
open Spec

/-- The elements one after the other in `bs`; what follows the last one is not an element. -/
inductive Elements : Bytes → List BerView → Prop
  | stop {bs v} : BerView.parse bs = .ok v → v.valid = false → Elements bs []
  | step {bs v vs} : BerView.parse bs = .ok v → v.valid = true → Elements (bs.drop (v.hdr + v.len)) vs →
      Elements bs (v :: vs)

/-- The identifier of the element is one of these. -/
def hasId (l : List Id) (v : BerView) : Bool :=
  match v.identifier with
  | .ok i => l.contains i
  | _ => false

/-- Number of contents octets a leaf type can store. -/
def leafTakes : Leaf → Nat → Prop
  | .int, n => n ≤ 8
  | .enum, n => n ≤ 8
  | .real _, n => n ≤ 100
  | .bool, n => n = 1
  | .null, n => n = 0
  | .str, _ => True
  | .oid, _ => True
  | .time _, n => 10 ≤ n ∧ n ≤ 23

/-- The explicit tag contains the inner element and nothing else (X.690 8.14.3). -/
def Fills (v : BerView) (id : Ident) (w : BerView) : Prop :=
  match id with
  | .single _ => True
  | .double _ _ => v.len = w.hdr + w.len

/-- A leaf: the tags match and the value is the contents octets.  For string-like types (strings,
OBJECT IDENTIFIER, times) with an explicit tag the value is specified only if nothing follows the
inner element inside the explicit tag. -/
def leafReads (k : Leaf) (id : Ident) (v : BerView) (x : Val) : Prop :=
  ∃ w c c', Matches v id .primitive w ∧ w.content = .ok c ∧ leafTakes k c.length ∧ x = .content c' ∧
    c'.length = c.length ∧
    match k with
    | .str => Fills v id w → c' = c
    | .oid => Fills v id w → c' = c
    | .time _ => Fills v id w → c' = c
    | _ => c' = c

/-- A component of a SEQUENCE, given the elements that are left: result and elements left after it. -/
def compReadsSeq (k : Kind) (ids : List Id) (R : BerView → Val → Prop) (vs : List BerView) (x : Val)
    (rest : List BerView) : Prop :=
  match k with
  | .mandatory => ∃ v, vs = v :: rest ∧ R v x
  | _ => (x = .absent ∧ rest = vs ∧ ∀ v vs', vs = v :: vs' → hasId ids v = false) ∨
      ∃ v x', vs = v :: rest ∧ hasId ids v = true ∧ x = .present x' ∧ R v x'

/-- A component of a SET, given the elements with its identifier: at most one, exactly one if mandatory. -/
def compReadsSet (k : Kind) (R : BerView → Val → Prop) (vs : List BerView) (x : Val) : Prop :=
  match k with
  | .mandatory => ∃ v, vs = [v] ∧ R v x
  | _ => (vs = [] ∧ x = .absent) ∨ ∃ v x', vs = [v] ∧ x = .present x' ∧ R v x'

/-- All identifiers of the components of a SET.  (The generated decoder of a SET without components accepts
any contents, hence `fs = .nil` below.) -/
def Fields.outer : Fields → List Id
  | .nil => []
  | .cons _ _ t rest => t.outer ++ rest.outer

/-- The bytes begin with a complete element. -/
def StartsElement (bs : Bytes) : Prop := ∃ v, BerView.parse bs = .ok v ∧ v.valid = true

mutual
def Ty.Reads : Ty → BerView → Val → Prop
  | .leaf k id => leafReads k id
  | .seqOf id t => fun v x => ∃ w bs vs xs, Matches v id .constructed w ∧ w.content = .ok bs ∧
      Elements bs vs ∧ x = .list xs ∧ all2 t.Reads vs xs
  | .seq id fs => fun v x => ∃ w bs vs xs, Matches v id .constructed w ∧ w.content = .ok bs ∧
      Elements bs vs ∧ x = .struct xs ∧ fs.ReadsSeq vs xs
  | .set id ext fs => fun v x => ∃ w bs vs xs, Matches v id .constructed w ∧ w.content = .ok bs ∧
      Elements bs vs ∧ x = .struct xs ∧ fs.ReadsSet vs xs ∧
      (∀ u ∈ vs, ext = true ∨ fs = .nil ∨ hasId fs.outer u = true)
  | .choice (.untagged _) as => fun v x => ∃ i y, x = .alt i y ∧ as.Reads i v y
  | .choice (.tagged id) as => fun v x => ∃ w bs u i y, Matches v id .constructed w ∧ w.content = .ok bs ∧
      BerView.parse bs = .ok u ∧ u.valid = true ∧ x = .alt i y ∧ as.Reads i u y
/-- The components in order of declaration; elements after the last component are skipped. -/
def Fields.ReadsSeq : Fields → List BerView → List Val → Prop
  | .nil => fun _ xs => xs = []
  | .cons k _ t rest => fun vs xs => ∃ x xs' vs', xs = x :: xs' ∧ compReadsSeq k t.outer t.Reads vs x vs' ∧
      rest.ReadsSeq vs' xs'
/-- Each component from the elements that carry its identifiers. -/
def Fields.ReadsSet : Fields → List BerView → List Val → Prop
  | .nil => fun _ xs => xs = []
  | .cons k _ t rest => fun vs xs => ∃ x xs', xs = x :: xs' ∧ compReadsSet k t.Reads (vs.filter (hasId t.outer)) x ∧
      rest.ReadsSet vs xs'
def Alts.Reads : Alts → Nat → BerView → Val → Prop
  | .nil => fun _ _ _ => False
  | .cons _ t rest => fun i v x => match i with
    | 0 => t.Reads v x
    | i + 1 => rest.Reads i v x
end

end FastBer
