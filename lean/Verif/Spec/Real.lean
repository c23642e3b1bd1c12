import Verif.Spec.Int
/-! # Specification of REAL: IEEE 754 binary64 and X.690 8.5 -/
namespace FastBer.Spec

/-- A real value: `± m · 2^e`, an infinity, or not a number. -/
inductive RealVal where
  | finite (neg : Bool) (m : Nat) (e : Int)
  | inf (neg : Bool)
  | nan
  deriving DecidableEq

/-- Equal values (of the same sign, so that -0 differs from +0). -/
def RealVal.Same : RealVal → RealVal → Prop
  | .finite s m e, .finite s' m' e' => s = s' ∧ m * 2 ^ (e - e').toNat = m' * 2 ^ (e' - e).toNat
  | .inf s, .inf s' => s = s'
  | .nan, .nan => True
  | _, _ => False

/-- A finite value in units of 2^-1074, the smallest positive binary64, of which every finite binary64 is a multiple. -/
def RealVal.units : RealVal → Int
  | .finite s m e => (if s then -1 else 1) * ((m * 2 ^ (e + 1074).toNat : Nat) : Int)
  | _ => 0

/-- Within rounding error of each other: infinities of the same sign, or numbers `x`, `y` with
`|x - y| ≤ 2^-52 · max(|x|, |y|)`. -/
def RealVal.Agree : RealVal → RealVal → Prop
  | .finite s m e, .finite s' m' e' =>
    let x := RealVal.units (.finite s m e)
    let y := RealVal.units (.finite s' m' e')
    (x - y).natAbs * 2 ^ 52 ≤ max x.natAbs y.natAbs
  | .inf s, .inf s' => s = s'
  | _, _ => False

/-- What `==` on REAL objects decides: as `Agree`, but numbers that differ by at most 2^-52 + 2^-105 are equal whatever their magnitude
(2^1022 and 2^969 units), and an infinity is equal to every number. -/
def RealVal.ComparesEqual : RealVal → RealVal → Prop
  | .finite s m e, .finite s' m' e' =>
    let x := RealVal.units (.finite s m e)
    let y := RealVal.units (.finite s' m' e')
    (x - y).natAbs ≤ 2 ^ 1022 + 2 ^ 969 ∨ (x - y).natAbs * 2 ^ 52 ≤ max x.natAbs y.natAbs
  | .inf s, .inf s' => s = s'
  | .inf _, .finite _ _ _ => True
  | .finite _ _ _, .inf _ => True
  | _, _ => False

/-- `⌊m · 2^k⌋`. -/
def floorScale (m : Nat) (k : Int) : Nat := m * 2 ^ k.toNat / 2 ^ (-k).toNat

/-- Sign bit, exponent field (11 bits) and fraction (52 bits) of a binary64. -/
def signBit (d : UInt64) : Nat := d.toNat / 2 ^ 63
def expField (d : UInt64) : Nat := d.toNat / 2 ^ 52 % 2 ^ 11
def fraction (d : UInt64) : Nat := d.toNat % 2 ^ 52

/-- IEEE 754: the value of a binary64. -/
def doubleVal (d : UInt64) : RealVal :=
  let neg := signBit d == 1
  if expField d = 2047 then (if fraction d = 0 then .inf neg else .nan)
  else if expField d = 0 then .finite neg (fraction d) (-1074)
  else .finite neg (2 ^ 52 + fraction d) ((expField d : Int) - 1075)

/-- `d` is `± m · 2^e` truncated towards zero to the precision of a binary64 (53 bits; fewer below 2^-1022), or an
infinity if the magnitude is at least 2^1024. -/
def Truncated (neg : Bool) (m : Nat) (e : Int) (d : UInt64) : Prop :=
  match doubleVal d with
  | .finite s n k => s = neg ∧ n = floorScale m (e - k) ∧ (k = -1074 ∨ 2 ^ 52 ≤ n)
  | .inf s => s = neg ∧ 1 ≤ floorScale m (e - 1024)
  | .nan => False

/-- X.690 8.5.7.4: the exponent octets and the mantissa octets that follow, given bits 2-1 of the first octet. -/
def realParts (bits : Nat) (rest : Bytes) : Option (Bytes × Bytes) :=
  if bits = 3 then
    match rest with
    | [] => none
    | x :: rest => if x.toNat = 0 ∨ rest.length < x.toNat then none else some (rest.take x.toNat, rest.drop x.toNat)
  else if rest.length < bits + 1 then none else some (rest.take (bits + 1), rest.drop (bits + 1))

/-- X.690 8.5.7: binary encoding; `b` is the first octet. -/
def realBinary (b : Nat) (rest : Bytes) : Option RealVal :=
  let base := b / 16 % 4
  if base = 3 then none
  else do
    let (e, n) ← realParts (b % 4) rest
    let scale : Int := if base = 0 then 1 else if base = 1 then 3 else 4
    some (.finite (b / 64 % 2 == 1) (value256 n * 2 ^ (b / 4 % 4)) (twosComplement e * scale))

/-- X.690 8.5: the value of REAL contents octets; the decimal form (8.5.8) is not covered. -/
def realContents : Bytes → Option RealVal
  | [] => some (.finite false 0 0)
  | b :: rest =>
    if 128 ≤ b.toNat then realBinary b.toNat rest
    else if rest ≠ [] then none
    else if b.toNat = 0x40 then some (.inf false)
    else if b.toNat = 0x41 then some (.inf true)
    else if b.toNat = 0x42 then some .nan
    else if b.toNat = 0x43 then some (.finite true 0 0)
    else none

end FastBer.Spec
