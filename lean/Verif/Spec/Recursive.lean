import Verif.Model.Recursive
import Verif.Spec.SchemaRead
/-!
# Values and encodings of recursive types

A value of a recursive type is a value of some finite unfolding of it: references are replaced by what they refer to `k` times, and
those that are left by a type without values.
-/
namespace FastBer
open Spec

variable {ι : Type}

mutual
/-- References replaced. -/
def RTy.close (σ : ι → Ty) : RTy ι → Ty
  | .leaf k id => .leaf k id
  | .seqOf id t => .seqOf id (t.close σ)
  | .seq id fs => .seq id (fs.close σ)
  | .set id ext fs => .set id ext (fs.close σ)
  | .choice id as => .choice id (as.close σ)
  | .ref n => σ n
def RFields.close (σ : ι → Ty) : RFields ι → Fields
  | .nil => .nil
  | .cons kind labels t rest => .cons kind labels (t.close σ) (rest.close σ)
def RAlts.close (σ : ι → Ty) : RAlts ι → Alts
  | .nil => .nil
  | .cons labels t rest => .cons labels (t.close σ) (rest.close σ)
end

/-- `k` levels, then `base`. -/
def REnv.unfold (E : REnv ι) (base : ι → Ty) : Nat → ι → Ty
  | 0 => base
  | k + 1 => fun n => (E n).close (E.unfold base k)

/-- One alternative for each identifier. -/
def altsFor (f : Id → Ty) : List Id → Alts
  | [] => .nil
  | i :: is => .cons [i] (f i) (altsFor f is)

/-- A type without values whose identifiers are the ones of type number `n`. -/
def REnv.void (E : REnv ι) (n : ι) : Ty :=
  .choice (.untagged (E n).ids) (altsFor (fun i => .choice (.tagged (.single i)) .nil) (E n).ids)

/-- The object `o` of type number `n` holds the value `x`, and `e` is its encoding. -/
def REnv.Rep (E : REnv ι) (n : ι) (o : Obj) (x : Val) (e : Bytes) : Prop := ∃ k, (E.unfold E.void k n).Rep o x e

/-- The object holds a value. -/
def REnv.Holds (E : REnv ι) (n : ι) (o : Obj) : Prop := ∃ x e, E.Rep n o x e

/-- The element is an encoding of `x`, in any BER form. -/
def REnv.Reads (E : REnv ι) (n : ι) (v : BerView) (x : Val) : Prop := ∃ k, (E.unfold E.void k n).Reads v x

/-- Times in the value have 10 to 23 characters. -/
def REnv.Valid (E : REnv ι) (n : ι) (x : Val) : Prop := ∀ k, (E.unfold E.void k n).Valid x

/-- The values are equal, as `operator==` should see it, in every large enough unfolding. -/
def REnv.Same (E : REnv ι) (n : ι) (x y : Val) : Prop := ∃ K, ∀ k, K ≤ k → (E.unfold E.void k n).Same x y

/-- A NULL with the first identifier, or a CHOICE of NULLs: stands for a named type when a definition that mentions it is checked. -/
def REnv.stub (E : REnv ι) (n : ι) : Ty :=
  match E n with
  | .choice (.untagged ids) _ => .choice (.untagged ids) (altsFor (fun i => .leaf .null (.single i)) ids)
  | t => .leaf .null (.single (t.ids.headD ⟨.universal, 0⟩))

/-- One definition on its own. -/
def REnv.one (E : REnv ι) (n : ι) : Ty := (E n).close E.stub

mutual
/-- No references. -/
def RTy.Ground : RTy ι → Prop
  | .leaf _ _ => True
  | .seqOf _ t => t.Ground
  | .seq _ fs => fs.Ground
  | .set _ _ fs => fs.Ground
  | .choice _ as => as.Ground
  | .ref _ => False
def RFields.Ground : RFields ι → Prop
  | .nil => True
  | .cons _ _ t rest => t.Ground ∧ rest.Ground
def RAlts.Ground : RAlts ι → Prop
  | .nil => True
  | .cons _ t rest => t.Ground ∧ rest.Ground
end

mutual
/-- Types of components with a DEFAULT have no references (the compiler refuses circular ones, ReorderAssignments.cpp:226-233;
other references can be written out). -/
def RTy.Defaults : RTy ι → Prop
  | .leaf _ _ => True
  | .seqOf _ t => t.Defaults
  | .seq _ fs => fs.Defaults
  | .set _ _ fs => fs.Defaults
  | .choice _ as => as.Defaults
  | .ref _ => True
def RFields.Defaults : RFields ι → Prop
  | .nil => True
  | .cons k _ t rest => t.Defaults ∧ (match k with | .default _ => t.Ground | _ => True) ∧ rest.Defaults
def RAlts.Defaults : RAlts ι → Prop
  | .nil => True
  | .cons _ t rest => t.Defaults ∧ rest.Defaults
end

mutual
/-- References whose encoding begins where the encoding of the type begins: alternatives of untagged CHOICEs. -/
def RTy.heads : RTy ι → List ι
  | .ref n => [n]
  | .choice (.untagged _) as => as.heads
  | _ => []
def RAlts.heads : RAlts ι → List ι
  | .nil => []
  | .cons _ t rest => t.heads ++ rest.heads
end

/-- Schemas with references. -/
structure REnv.Ok (E : REnv ι) : Prop where
  /-- every definition on its own is one the compiler can emit (`Ty.WF`) -/
  wf : ∀ n, (E.one n).WF
  /-- a definition is not just a reference -/
  proper : ∀ n m, E n ≠ .ref m
  defaults : ∀ n, (E n).Defaults
  /-- X.680 3.8.61, 29: a CHOICE does not contain itself without a tag in between -/
  grounded : ∃ (rank : ι → Nat) (R : Nat), (∀ n, rank n ≤ R) ∧ ∀ n m, m ∈ (E n).heads → rank m < rank n
  /-- default construction of every type returns -/
  constructible : ∃ k, ∀ n, ∃ o, E.new n k = .ok o

end FastBer
