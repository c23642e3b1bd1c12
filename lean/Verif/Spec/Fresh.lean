import Verif.Spec.Encoding
/-!
# Objects whose strings were assigned, and contents octets the library can hold
-/
namespace FastBer
open Spec

mutual
/-- The string-like objects (strings, OBJECT IDENTIFIER, times) in the object store what assigning contents octets to them stores
(C24): an element with tags and lengths in their shortest form.  A string that was decoded stores the element as it was received. -/
def Ty.Fresh : Ty → Obj → Prop
  | .leaf k id => fun o => match k with
    | .str => ∃ c, o = .cont ⟨tagged id .primitive c, c.length⟩
    | .oid => ∃ c, o = .cont ⟨tagged id .primitive c, c.length⟩
    | .time _ => ∃ c, o = .cont ⟨tagged id .primitive c, c.length⟩
    | _ => True
  | .seqOf _ t => fun o => match o with
    | .list os => ∀ o' ∈ os, t.Fresh o'
    | _ => True
  | .seq _ fs => fun o => match o with
    | .struct os => fs.Fresh os
    | _ => True
  | .set _ _ fs => fun o => match o with
    | .struct os => fs.Fresh os
    | _ => True
  | .choice _ as => fun o => match o with
    | .alt i o' => as.Fresh i o'
    | _ => True
def Fields.Fresh : Fields → List Obj → Prop
  | .nil => fun _ => True
  | .cons k _ t rest => fun os => match os with
    | o :: os' => (match k, o with
      | .mandatory, o => t.Fresh o
      | _, .some o' => t.Fresh o'
      | _, _ => True) ∧ rest.Fresh os'
    | [] => True
def Alts.Fresh : Alts → Nat → Obj → Prop
  | .nil => fun _ _ => True
  | .cons _ t rest => fun i o => match i with
    | 0 => t.Fresh o
    | i + 1 => rest.Fresh i o
end

namespace Ast.Spec
open FastBer.Ast

/-- X.690 10.1: length fields in their shortest form. -/
def shortest (contents : Builtin → Bytes → Prop) : Rules := ⟨fun n l => l = lengthOctets n, contents⟩

/-- Definite length fields with at most eight octets after the first. -/
def definite (contents : Builtin → Bytes → Prop) : Rules := ⟨LengthField 8, contents⟩

/-- Contents octets for which the library has room. -/
def storable : Builtin → Bytes → Prop
  | .boolean, c => c.length = 1
  | .null, c => c.length = 0
  | .integer, c => c.length ≤ 8
  | .enumerated, c => c.length ≤ 8
  | .real, c => c.length ≤ 100
  | .utcTime, c => 10 ≤ c.length ∧ c.length ≤ 23
  | .generalizedTime, c => 10 ≤ c.length ∧ c.length ≤ 23
  | .date, c => 10 ≤ c.length ∧ c.length ≤ 23
  | .dateTime, c => 10 ≤ c.length ∧ c.length ≤ 23
  | .duration, c => 10 ≤ c.length ∧ c.length ≤ 23
  | .time, c => 10 ≤ c.length ∧ c.length ≤ 23
  | .timeOfDay, c => 10 ≤ c.length ∧ c.length ≤ 23
  | _, c => c.length < 2 ^ 63

/-- Contents octets an object can hold: as `storable`, but times are not looked at when they are assigned. -/
def holdable : Builtin → Bytes → Prop
  | .boolean, c => c.length = 1
  | .null, c => c.length = 0
  | .integer, c => c.length ≤ 8
  | .enumerated, c => c.length ≤ 8
  | .real, c => c.length ≤ 100
  | _, c => c.length < 2 ^ 64

/-- The octets do not begin like an element whose tag number is 2^63 or more. -/
def NoHugeTag (c : Bytes) : Prop :=
  ¬ ∃ first mid tail, c = first :: (mid ++ tail) ∧ first.toNat % 32 = 31 ∧ (∀ b ∈ mid, 128 ≤ b.toNat) ∧ 2 ^ 56 ≤ value128 mid

/-- Contents octets the library reads. -/
def readable (k : Builtin) (c : Bytes) : Prop := storable k c ∧ NoHugeTag c

end Ast.Spec
end FastBer
