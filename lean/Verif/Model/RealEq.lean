import Verif.Model.Real
/-!
# `operator==` of REAL

Models `Real::operator==` (ber_types/Real.hpp:596-623) with the IEEE 754 binary64 arithmetic it uses: subtraction and multiplication by
2^-52, both rounded to nearest, ties to even (the default rounding mode), no extended precision.

A finite `double` is an integer multiple of 2^-1074, which is what `Dbl.fin` holds.  The sign of zero is forgotten: none of the operations
below sees it.
-/
namespace FastBer

/-- A `double` as a number.  (arithmetic of Real.hpp:596-623) -/
inductive Dbl where
  | nan
  | inf (negative : Bool)
  | fin (units : Int)
  deriving DecidableEq, Repr

/-- The number a bit pattern stands for (IEEE 754-2008, 3.4). -/
def Dbl.ofBits (d : UInt64) : Dbl :=
  let negative := decide (2 ^ 63 ≤ d.toNat)
  let e := d.toNat / 2 ^ 52 % 2 ^ 11
  let f := d.toNat % 2 ^ 52
  if e = 2047 then (if f = 0 then .inf negative else .nan)
  else
    let n : Nat := if e = 0 then f else (2 ^ 52 + f) * 2 ^ (e - 1)
    .fin (if negative then -(n : Int) else n)

/-- `n / 2^k` rounded to nearest, ties to even.  (arithmetic of Real.hpp:596-623) -/
def roundShift (n k : Nat) : Nat :=
  if 2 * (n % 2 ^ k) > 2 ^ k ∨ (2 * (n % 2 ^ k) = 2 ^ k ∧ n / 2 ^ k % 2 = 1) then n / 2 ^ k + 1 else n / 2 ^ k

/-- `n` rounded to 53 significant bits (IEEE 754-2008, 4.3.1). -/
def roundTo53 (n : Nat) : Nat := roundShift n (n.log2 - 52) * 2 ^ (n.log2 - 52)

/-- `|a - b|` (`std::abs` of a subtraction).  (Real.hpp:616, 621) -/
def Dbl.distance : Dbl → Dbl → Dbl
  | .fin x, .fin y => if 2 ^ 2098 ≤ roundTo53 (x - y).natAbs then .inf false else .fin (roundTo53 (x - y).natAbs)
  | .inf s, .inf t => if s = t then .nan else .inf false
  | .inf _, .fin _ => .inf false
  | .fin _, .inf _ => .inf false
  | _, _ => .nan

/-- `std::abs`.  (Real.hpp:622) -/
def Dbl.abs : Dbl → Dbl
  | .fin x => .fin x.natAbs
  | .inf _ => .inf false
  | .nan => .nan

/-- `std::numeric_limits<double>::epsilon() * a` for `a` that is not negative: `epsilon` is 2^-52.  (Real.hpp:622) -/
def Dbl.timesEpsilon : Dbl → Dbl
  | .fin x => .fin (roundShift x.natAbs 52)
  | .inf s => .inf s
  | .nan => .nan

/-- `a < b`.  (used by `std::max`, Real.hpp:622) -/
def Dbl.lt : Dbl → Dbl → Bool
  | .fin x, .fin y => x < y
  | .inf true, .fin _ => true
  | .fin _, .inf false => true
  | .inf true, .inf false => true
  | _, _ => false

/-- `a <= b`.  (Real.hpp:616, 621) -/
def Dbl.le : Dbl → Dbl → Bool
  | .nan, _ => false
  | _, .nan => false
  | a, b => !Dbl.lt b a

/-- `std::max`.  (Real.hpp:622) -/
def Dbl.max (a b : Dbl) : Dbl := if Dbl.lt a b then b else a

/-- `Real::operator==` on the two values (Real.hpp:603-622). -/
def Dbl.equal (a b : Dbl) : Bool :=
  match a, b with
  | .nan, _ => false
  | _, .nan => false
  | .inf s, .inf t => s == t
  | a, b => Dbl.le (a.distance b) (.fin (2 ^ 1022)) || Dbl.le (a.distance b) (Dbl.max a.abs b.abs).timesEpsilon

/-- `Real::operator==` on contents octets (Real.hpp:600-601, 560-566): 0.0 for contents that cannot be decoded. -/
def realCmp (dec : Bool → Nat → Int → UInt64) (c d : Bytes) : Exec Bool := do
  let l ← decodeReal dec c
  let r ← decodeReal dec d
  .ok ((Dbl.ofBits (l.getD 0)).equal (.ofBits (r.getD 0)))

/-- `Real::operator==` (Real.hpp:596-623). -/
def Real.equal (dec : Bool → Nat → Int → UInt64) (id : Ident) (a b : Bytes) : Exec Bool := do
  let l ← Real.value dec id a
  let r ← Real.value dec id b
  .ok ((Dbl.ofBits l).equal (.ofBits r))

end FastBer
