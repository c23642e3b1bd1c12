import Verif.Model.Schema
import Verif.Spec.Int
import Verif.Spec.Reader
/-!
# Specification of generated types: abstract values, their encodings, and when a schema is unambiguous

`Ty.Rep t o x e`: the C++ object `o` of type `t` holds the abstract value `x`, and the X.690 encoding
of what it holds is `e`.  Nothing here mentions the generated `encode`/`decode` functions.
-/
namespace FastBer
open Spec

/-- Abstract ASN.1 values.  A leaf value is given by its contents octets (C12-C26 say which
integer, boolean, string, … contents octets stand for). -/
inductive Val where
  | content (bs : Bytes)
  | list (xs : List Val)
  | struct (xs : List Val)
  | absent
  | present (x : Val)
  | alt (i : Nat) (x : Val)

/-- Pointwise relation between three lists. -/
def all3 {α β γ : Type} (R : α → β → γ → Prop) : List α → List β → List γ → Prop
  | [], [], [] => True
  | a :: as, b :: bs, c :: cs => R a b c ∧ all3 R as bs cs
  | _, _, _ => False

/-- A fixed-size object of capacity `max`: the encoding, followed by unused bytes. -/
def smallRep (max : Nat) (id : Ident) (o : Obj) (x : Val) (e : Bytes) : Prop :=
  ∃ c junk, x = .content c ∧ c.length ≤ max ∧ c.length + junk.length = max ∧
    e = tagged id .primitive c ∧ o = .raw (e ++ junk)

/-- A string-like object stores one complete element with the right tag(s), as assigned or as
received; its content is the last octets of it. -/
def contRep (id : Ident) (o : Obj) (x : Val) (e : Bytes) : Prop :=
  ∃ v w, BerView.parse e = .ok v ∧ v.hdr + v.len = e.length ∧ e.length < 2 ^ 64 ∧
    Matches v id .primitive w ∧ w.len ≤ e.length ∧
    x = .content (e.drop (e.length - w.len)) ∧ o = .cont ⟨e, w.len⟩

/-- Leaves. -/
def leafRep (k : Leaf) (id : Ident) (o : Obj) (x : Val) (e : Bytes) : Prop :=
  match k with
  | .int => smallRep 8 id o x e
  | .enum => smallRep 8 id o x e
  | .real _ => smallRep 100 id o x e
  | .bool => ∃ b, x = .content [b] ∧ e = tagged id .primitive [b] ∧ o = .raw e
  | .null => x = .content [] ∧ e = tagged id .primitive [] ∧ o = .raw e
  | .str => contRep id o x e
  | .oid => contRep id o x e
  | .time _ => contRep id o x e

/-- A component: mandatory, or OPTIONAL / DEFAULT, in which case an absent one has no octets. -/
def compRep (k : Kind) (R : Obj → Val → Bytes → Prop) (o : Obj) (x : Val) (e : Bytes) : Prop :=
  match k with
  | .mandatory => R o x e
  | _ => (o = .none ∧ x = .absent ∧ e = []) ∨ ∃ o' x', o = .some o' ∧ x = .present x' ∧ R o' x' e

mutual
/-- X.690: leaves 8.2-8.8, 8.19 ff.; SEQUENCE (OF), SET (OF) 8.9-8.12: one constructed element around
the encodings of the components in order; CHOICE 8.13: the encoding of the chosen alternative, or,
if the CHOICE is tagged, an element around it. -/
def Ty.Rep : Ty → Obj → Val → Bytes → Prop
  | .leaf k id => leafRep k id
  | .seqOf id t => fun o x e => ∃ os xs es, o = .list os ∧ x = .list xs ∧
      e = tagged id .constructed es.flatten ∧ all3 t.Rep os xs es
  | .seq id fs => fun o x e => ∃ os xs es, o = .struct os ∧ x = .struct xs ∧
      e = tagged id .constructed es.flatten ∧ fs.Rep os xs es
  | .set id _ fs => fun o x e => ∃ os xs es, o = .struct os ∧ x = .struct xs ∧
      e = tagged id .constructed es.flatten ∧ fs.Rep os xs es
  | .choice cid as => fun o x e => ∃ i o' x' e', o = .alt i o' ∧ x = .alt i x' ∧ as.Rep i o' x' e' ∧
      e = match cid with
        | .untagged _ => e'
        | .tagged id => tagged id .constructed e'
/-- Components in order. -/
def Fields.Rep : Fields → List Obj → List Val → List Bytes → Prop
  | .nil => fun os xs es => os = [] ∧ xs = [] ∧ es = []
  | .cons k _ t rest => fun os xs es => ∃ o os' x xs' e es', os = o :: os' ∧ xs = x :: xs' ∧ es = e :: es' ∧
      compRep k t.Rep o x e ∧ rest.Rep os' xs' es'
/-- The alternative with a given index. -/
def Alts.Rep : Alts → Nat → Obj → Val → Bytes → Prop
  | .nil => fun _ _ _ _ => False
  | .cons _ t rest => fun i o x e => match i with
    | 0 => t.Rep o x e
    | i + 1 => rest.Rep i o x e
end

/-- The object holds some value. -/
def Ty.Holds (t : Ty) (o : Obj) : Prop := ∃ x e, t.Rep o x e

/-- The object holds a value whose encoding is shorter than 2^64 bytes. -/
def Ty.Fits (t : Ty) (o : Obj) : Prop := ∃ x e, t.Rep o x e ∧ e.length < 2 ^ 64

/-- Identifier and construction of every type but an untagged CHOICE. -/
def Ty.header : Ty → Option (Ident × Construction)
  | .leaf _ id => some (id, .primitive)
  | .seqOf id _ => some (id, .constructed)
  | .seq id _ => some (id, .constructed)
  | .set id _ _ => some (id, .constructed)
  | .choice (.tagged id) _ => some (id, .constructed)
  | .choice (.untagged _) _ => none

def compValid (V : Val → Prop) : Kind → Val → Prop
  | .mandatory, x => V x
  | _, .present x => V x
  | _, _ => True

mutual
/-- Values a decoder accepts: the times in them have 10 to 23 characters.  (Everything else is
restricted by its representation already.) -/
def Ty.Valid : Ty → Val → Prop
  | .leaf k _ => fun x => match k, x with
    | .time _, .content c => 10 ≤ c.length ∧ c.length ≤ 23
    | _, _ => True
  | .seqOf _ t => fun x => match x with
    | .list xs => ∀ y ∈ xs, t.Valid y
    | _ => True
  | .seq _ fs => fun x => match x with
    | .struct xs => fs.Valid xs
    | _ => True
  | .set _ _ fs => fun x => match x with
    | .struct xs => fs.Valid xs
    | _ => True
  | .choice _ as => fun x => match x with
    | .alt i y => as.Valid i y
    | _ => True
def Fields.Valid : Fields → List Val → Prop
  | .nil => fun _ => True
  | .cons k _ t rest => fun xs => match xs with
    | x :: xs => compValid t.Valid k x ∧ rest.Valid xs
    | [] => True
def Alts.Valid : Alts → Nat → Val → Prop
  | .nil => fun _ _ => True
  | .cons _ t rest => fun i x => match i with
    | 0 => t.Valid x
    | i + 1 => rest.Valid i x
end

/-! ## Components and alternatives as lists -/

/-- A component of a SEQUENCE/SET: declaration, identifiers in the generated decoder, type. -/
structure Comp where
  kind : Kind
  labels : List Id
  ty : Ty

/-- The components in order of declaration. -/
def Fields.comps : Fields → List Comp
  | .nil => []
  | .cons k l t rest => ⟨k, l, t⟩ :: rest.comps

/-- An alternative of a CHOICE: identifiers in the generated decoder, type. -/
structure AltC where
  labels : List Id
  ty : Ty

/-- The alternatives in order of declaration. -/
def Alts.list : Alts → List AltC
  | .nil => []
  | .cons l t rest => ⟨l, t⟩ :: rest.list

/-- Two objects hold the same abstract value. -/
def Ty.Agree (t : Ty) (a b : Obj) : Prop := ∃ x e f, t.Rep a x e ∧ t.Rep b x f

mutual
/-- X.680: the identifiers an encoding of the type can begin with. -/
def Ty.outer : Ty → List Id
  | .leaf _ id => [id.outer]
  | .seqOf id _ => [id.outer]
  | .seq id _ => [id.outer]
  | .set id _ _ => [id.outer]
  | .choice (.tagged id) _ => [id.outer]
  | .choice (.untagged _) as => as.outer
def Alts.outer : Alts → List Id
  | .nil => []
  | .cons _ t rest => t.outer ++ rest.outer
end

mutual
/-- Types the compiler can emit: tag numbers are non-negative `int64_t`s, a CHOICE has at least one
alternative and an untagged one lists the identifiers of its alternatives, defaults are values. -/
def Ty.WF : Ty → Prop
  | .leaf _ id => identOk id
  | .seqOf id t => identOk id ∧ t.WF
  | .seq id fs => identOk id ∧ fs.WF
  | .set id _ fs => identOk id ∧ fs.WF
  | .choice (.tagged id) as => identOk id ∧ as.WF ∧ as ≠ .nil
  | .choice (.untagged ids) as => ids = as.outer ∧ as.WF ∧ as ≠ .nil
def Fields.WF : Fields → Prop
  | .nil => True
  | .cons k _ t rest => t.WF ∧ (match k with | .default d => t.Holds d | _ => True) ∧ rest.WF
def Alts.WF : Alts → Prop
  | .nil => True
  | .cons _ t rest => t.WF ∧ rest.WF
end

/-- Identifiers the encoding of the remaining components of a SEQUENCE can begin with. -/
def Fields.firsts : Fields → List Id
  | .nil => []
  | .cons .mandatory _ t _ => t.outer
  | .cons _ _ t rest => t.outer ++ rest.firsts

/-- X.680 25.6 for the generated SEQUENCE decoder: an optional component is tested for exactly its own
identifiers, and none of them can begin what follows. -/
def Fields.SeqUnamb : Fields → Prop
  | .nil => True
  | .cons .mandatory _ _ rest => rest.SeqUnamb
  | .cons _ labels t rest => (∀ i, i ∈ labels ↔ i ∈ t.outer) ∧ (∀ i ∈ labels, i ∉ rest.firsts) ∧ rest.SeqUnamb

/-- All case labels of the generated SET decoder. -/
def Fields.labels : Fields → List Id
  | .nil => []
  | .cons _ l _ rest => l ++ rest.labels

/-- X.680 27.3: the components of a SET have distinct identifiers, which are the case labels. -/
def Fields.SetUnamb : Fields → Prop
  | .nil => True
  | .cons _ labels t rest => (∀ i, i ∈ labels ↔ i ∈ t.outer) ∧ (∀ i ∈ labels, i ∉ rest.labels) ∧ rest.SetUnamb

def Alts.labels : Alts → List Id
  | .nil => []
  | .cons l _ rest => l ++ rest.labels

/-- X.680 29.3: the alternatives of a CHOICE have distinct identifiers, which are the case labels. -/
def Alts.Distinct : Alts → Prop
  | .nil => True
  | .cons labels t rest => (∀ i, i ∈ labels ↔ i ∈ t.outer) ∧ (∀ i ∈ labels, i ∉ rest.labels) ∧ rest.Distinct

mutual
/-- Legal ASN.1: every SEQUENCE, SET and CHOICE inside the type is unambiguous, and the generated case
labels are the identifiers of the components. -/
def Ty.Proper : Ty → Prop
  | .leaf _ _ => True
  | .seqOf _ t => t.Proper
  | .seq _ fs => fs.SeqUnamb ∧ fs.AllProper
  | .set _ _ fs => fs.SetUnamb ∧ fs.AllProper
  | .choice _ as => as.Distinct ∧ as.AllProper
def Fields.AllProper : Fields → Prop
  | .nil => True
  | .cons _ _ t rest => t.Proper ∧ rest.AllProper
def Alts.AllProper : Alts → Prop
  | .nil => True
  | .cons _ t rest => t.Proper ∧ rest.AllProper
end

/-- X.680 29.3 (distinct identifiers), strengthened for the generated decoder: the alternatives have
distinct tag *numbers*, because the class is not looked at. -/
def Alts.Unamb : Alts → Prop
  | .nil => True
  | .cons labels t rest => (∀ i, i ∈ labels ↔ i ∈ t.outer) ∧
      (∀ i ∈ labels, ∀ j ∈ rest.labels, i.tag ≠ j.tag) ∧ rest.Unamb

mutual
/-- Every SEQUENCE, SET and CHOICE inside the type is unambiguous, even to a decoder of CHOICE that looks at
tag numbers only. -/
def Ty.Unamb : Ty → Prop
  | .leaf _ _ => True
  | .seqOf _ t => t.Unamb
  | .seq _ fs => fs.SeqUnamb ∧ fs.AllUnamb
  | .set _ _ fs => fs.SetUnamb ∧ fs.AllUnamb
  | .choice _ as => as.Unamb ∧ as.AllUnamb
def Fields.AllUnamb : Fields → Prop
  | .nil => True
  | .cons _ _ t rest => t.Unamb ∧ rest.AllUnamb
def Alts.AllUnamb : Alts → Prop
  | .nil => True
  | .cons _ t rest => t.Unamb ∧ rest.AllUnamb
end

/-- An untagged CHOICE. -/
def Ty.isUntaggedChoice : Ty → Prop
  | .choice (.untagged _) _ => True
  | _ => False

mutual
/-- No SEQUENCE inside the type has a mandatory component that is an untagged CHOICE. -/
def Ty.Guarded : Ty → Prop
  | .leaf _ _ => True
  | .seqOf _ t => t.Guarded
  | .seq _ fs => fs.SeqGuarded
  | .set _ _ fs => fs.SetGuarded
  | .choice _ as => as.Guarded
def Fields.SeqGuarded : Fields → Prop
  | .nil => True
  | .cons k _ t rest => t.Guarded ∧ (match k with | .mandatory => ¬ t.isUntaggedChoice | _ => True) ∧
      rest.SeqGuarded
def Fields.SetGuarded : Fields → Prop
  | .nil => True
  | .cons _ _ t rest => t.Guarded ∧ rest.SetGuarded
def Alts.Guarded : Alts → Prop
  | .nil => True
  | .cons _ t rest => t.Guarded ∧ rest.Guarded
end

/-! ## Equality of abstract values, as `operator==` should see it -/

/-- Equal leaf values: integers by value, enumerations by their `int` value, booleans by truth value,
strings by content; reals and times by the (unspecified) comparison. -/
def leafSame (k : Leaf) (x y : Val) : Prop :=
  match x, y with
  | .content a, .content b =>
    match k with
    | .int => twosComplement a = twosComplement b
    | .enum => (twosComplement a).bmod (2 ^ 32) = (twosComplement b).bmod (2 ^ 32)
    | .bool => (a = [0] ↔ b = [0])
    | .null => True
    | .str => a = b
    | .oid => a = b
    | .real cmp => cmp a b = .ok true
    | .time cmp => cmp a b = .ok true
  | _, _ => False

/-- Value of a component: its own, or the default if absent. -/
def defaultOr (R : Obj → Val → Bytes → Prop) (d : Obj) (x y : Val) : Prop :=
  match x with
  | .present z => y = z
  | .absent => ∃ e, R d y e
  | _ => False

def compSame (R : Obj → Val → Bytes → Prop) (S : Val → Val → Prop) (k : Kind) (x y : Val) : Prop :=
  match k with
  | .mandatory => S x y
  | .optional => match x, y with
    | .absent, .absent => True
    | .present a, .present b => S a b
    | _, _ => False
  | .default d => ∃ a b, defaultOr R d x a ∧ defaultOr R d y b ∧ S a b

def all2 {α β : Type} (R : α → β → Prop) : List α → List β → Prop
  | [], [] => True
  | a :: as, b :: bs => R a b ∧ all2 R as bs
  | _, _ => False

mutual
/-- Equality of values of a type. -/
def Ty.Same : Ty → Val → Val → Prop
  | .leaf k _ => leafSame k
  | .seqOf _ t => fun x y => match x, y with
    | .list xs, .list ys => all2 t.Same xs ys
    | _, _ => False
  | .seq _ fs => fun x y => match x, y with
    | .struct xs, .struct ys => fs.Same xs ys
    | _, _ => False
  | .set _ _ fs => fun x y => match x, y with
    | .struct xs, .struct ys => fs.Same xs ys
    | _, _ => False
  | .choice _ as => fun x y => match x, y with
    | .alt i a, .alt j b => i = j ∧ as.Same i a b
    | _, _ => False
def Fields.Same : Fields → List Val → List Val → Prop
  | .nil => fun xs ys => xs = [] ∧ ys = []
  | .cons k _ t rest => fun xs ys => match xs, ys with
    | x :: xs, y :: ys => compSame t.Rep t.Same k x y ∧ rest.Same xs ys
    | _, _ => False
def Alts.Same : Alts → Nat → Val → Val → Prop
  | .nil => fun _ _ _ => False
  | .cons _ t rest => fun i x y => match i with
    | 0 => t.Same x y
    | i + 1 => rest.Same i x y
end

/-- The comparison of a leaf always finishes. -/
def leafCmpTotal : Leaf → Prop
  | .real cmp => ∀ a b, ∃ r, cmp a b = .ok r
  | .time cmp => ∀ a b, ∃ r, cmp a b = .ok r
  | _ => True

/-- … and says that equal contents are equal (not so for a NaN). -/
def leafCmpRefl : Leaf → Prop
  | .real cmp => ∀ a, cmp a a = .ok true
  | .time cmp => ∀ a, cmp a a = .ok true
  | _ => True

mutual
/-- A property of all leaves of a type. -/
def Ty.Leaves (P : Leaf → Prop) : Ty → Prop
  | .leaf k _ => P k
  | .seqOf _ t => t.Leaves P
  | .seq _ fs => fs.Leaves P
  | .set _ _ fs => fs.Leaves P
  | .choice _ as => as.Leaves P
def Fields.Leaves (P : Leaf → Prop) : Fields → Prop
  | .nil => True
  | .cons _ _ t rest => t.Leaves P ∧ rest.Leaves P
def Alts.Leaves (P : Leaf → Prop) : Alts → Prop
  | .nil => True
  | .cons _ t rest => t.Leaves P ∧ rest.Leaves P
end

end FastBer
