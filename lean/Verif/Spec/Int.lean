import Verif.Spec.X690
/-! # Specification of INTEGER contents, after X.690 8.3 -/
namespace FastBer.Spec

/-- X.690 8.3.3: value of contents octets as a two's complement binary number. -/
def twosComplement (bs : Bytes) : Int :=
  match bs with
  | [] => 0
  | b :: _ => if 128 ≤ b.toNat then (value256 bs : Int) - 256 ^ bs.length else value256 bs

/-- X.690 8.3.2: at least one octet, and if there is more than one, the bits of the first octet and
bit 8 of the second are neither all ones nor all zeros. -/
def minimalInt : Bytes → Prop
  | [] => False
  | [_] => True
  | a :: b :: _ => ¬ (a.toNat = 0 ∧ b.toNat < 128) ∧ ¬ (a.toNat = 255 ∧ 128 ≤ b.toNat)

end FastBer.Spec
