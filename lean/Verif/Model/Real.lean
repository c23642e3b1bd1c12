import Verif.Model.RealDecimal
/-!
# REAL

Models `ber_types/Real.hpp`.  A `double` is its IEEE 754 binary64 bit pattern, a `UInt64`.

`decode_real_decimal` is in Model/RealDecimal; its parameter `dec`, the conversion of a decimal number to the nearest double by
abseil, is a parameter of `decodeReal` too.  `operator==` is in Model/RealEq.
`<<` of a negative `int` (strictly undefined before C++20) is taken as multiplication, `>>` as division
rounding down, as every supported compiler defines them.
-/
namespace FastBer

/-- `span[i]`.  (accesses to spans in Real.hpp:160-590) -/
def at' (c : Bytes) (i : Nat) : Exec UInt8 :=
  match c[i]? with
  | some b => .ok b
  | none => .ub

/-- `span[i] = b`.  (accesses to spans in Real.hpp:160-590) -/
def put (c : Bytes) (i : Nat) (b : UInt8) : Exec Bytes := if i < c.length then .ok (c.set i b) else .ub

/-- `memcpy` of a `double` and `std::reverse` of its 8 bytes (Real.hpp:437-444): most significant first. -/
def bytesOfDouble (d : UInt64) : Bytes := be64 d.toNat

/-- The reverse (Real.hpp:426-431): a `double` from its 8 bytes, most significant first. -/
def doubleOfBytes (bs : Bytes) : UInt64 := UInt64.ofNat (bs.foldl (fun acc b => acc * 256 + b.toNat) 0)

/-- `std::numeric_limits<double>::infinity()` (Real.hpp:174). -/
def plusInf : UInt64 := 0x7FF0000000000000
/-- Its negative (Real.hpp:179). -/
def minusInf : UInt64 := 0xFFF0000000000000
/-- `std::numeric_limits<double>::quiet_NaN()` (Real.hpp:184). -/
def quietNaN : UInt64 := 0x7FF8000000000000
/-- `-0.0` (Real.hpp:187-190). -/
def minusZero : UInt64 := 0x8000000000000000

/-! ## Encoding -/

/-- Loop "shift left 1 bit" over `buffer[1..7]` (Real.hpp:495-499). -/
def shiftLeft1 (buf : Bytes) : Bytes :=
  [1, 2, 3, 4, 5, 6, 7].foldl (fun b j =>
    b.set j (UInt8.ofNat (((b.getD j 0).toNat * 256 + (b.getD (j + 1) 0).toNat) / 128))) buf

/-- Writes `bs` to consecutive elements of the span.  (Real.hpp:436-590) -/
def putAll (out : Bytes) (i : Nat) : Bytes → Exec Bytes
  | [] => .ok out
  | b :: bs => do
    let out ← put out i b
    putAll out (i + 1) bs

/-- Second half of `encode_real` (Real.hpp:510-551): control octet, exponent, seven mantissa octets. -/
def encodeRealBinary (out : Bytes) (sign : Nat) (exponent : Int) (mantissa : Bytes) : Exec (Nat × Bytes) := do
  if -128 ≤ exponent ∧ exponent ≤ 127 then
    let out ← putAll out 0 [UInt8.ofNat (0x80 + sign * 64), UInt8.ofNat (exponent % 256).toNat]
    let out ← putAll out 2 mantissa
    .ok (9, out)
  else
    let out ← putAll out 0 [UInt8.ofNat (0x81 + sign * 64), UInt8.ofNat (exponent / 256 % 256).toNat,
      UInt8.ofNat (exponent % 256).toNat]
    let out ← putAll out 3 mantissa
    .ok (10, out)

/-- `encode_real` (Real.hpp:435-552): number of octets and the new content of the span. -/
def encodeReal (out : Bytes) (d : UInt64) : Exec (Nat × Bytes) := do
  let buffer := bytesOfDouble d ++ [0]
  let b0 := (buffer.getD 0 0).toNat
  let b1 := (buffer.getD 1 0).toNat
  let sign := b0 / 128
  let exponent : Nat := b0 % 128 * 16 + b1 / 16
  let buffer := buffer.set 1 (UInt8.ofNat (b1 % 16))
  if exponent = 0x7FF then
    if (buffer.drop 1).all (· == 0) then
      if sign = 0 then do
        let out ← put out 0 0x40
        .ok (1, out)
      else do
        let out ← put out 0 0x41
        .ok (1, out)
    else do
      let out ← put out 0 0x42
      .ok (1, out)
  else if exponent = 0 then
    if (buffer.drop 1).all (· == 0) then
      if sign = 0 then .ok (0, out)
      else do
        let out ← put out 0 0x43
        .ok (1, out)
    else encodeRealBinary out sign ((exponent : Int) - 1075) (((shiftLeft1 buffer).drop 1).take 7)
  else
    let buffer := buffer.set 1 (buffer.getD 1 0 ||| 0x10)
    encodeRealBinary out sign ((exponent : Int) - 1075) ((buffer.drop 1).take 7)

/-! ## Decoding -/

/-- `exponent_len` and `exponent_offset` (Real.hpp:81-92, 214-222). -/
def realExponentPos (c : Bytes) : Exec (Nat × Nat) := do
  let b0 ← at' c 0
  if (b0 &&& 0x03).toNat + 1 = 4 then
    let b1 ← at' c 1
    .ok (b1.toNat, 2)
  else .ok ((b0 &&& 0x03).toNat + 1, 1)

/-- `check_real_binary` (Real.hpp:74-121). -/
def checkRealBinary (c : Bytes) : Exec Bool :=
  if c.length > 3 then do
    let b0 ← at' c 0
    if (b0 &&& 0x30) ≠ 0x30 then
      let (len, off) ← realExponentPos c
      if len = 0 ∨ len + off ≥ c.length then .ok false
      else
        let tooLong ← (if len > 1 then do
            let first ← at' c off
            let second ← at' c (off + 1)
            .ok (decide ((first = 0xFF ∧ (second &&& 0x80) ≠ 0) ∨ (first = 0x00 ∧ (second &&& 0x80) = 0)))
          else .ok false : Exec Bool)
        if tooLong then .ok false
        else .ok ((c.drop (len + off)).any (· != 0))
    else .ok false
  else .ok false

/-- `decode_real_special` (Real.hpp:164-199): the new value of `output`, if successful. -/
def decodeRealSpecial (c : Bytes) : Exec (Option UInt64) :=
  if c.length = 1 then do
    let b ← at' c 0
    if b = 0x40 then .ok (some plusInf)
    else if b = 0x41 then .ok (some minusInf)
    else if b = 0x42 then .ok (some quietNaN)
    else if b = 0x43 then .ok (some minusZero)
    else .ok none
  else .ok none

/-- Loop "Read exponent" (Real.hpp:242-246); `n` is the number of iterations left. -/
def readExponent (c : Bytes) (e : Int) (pos : Nat) : Nat → Exec Int
  | 0 => .ok e
  | n + 1 => do
    let b ← at' c pos
    readExponent c (e * 256 + b.toNat) (pos + 1) n

/-- Loop "Skip leading zeros" (Real.hpp:310-315) on the octets from `mantissa_offset` on. -/
def skipLeadingZeros : Bytes → Bytes
  | a :: b :: rest => if a = 0 then skipLeadingZeros (b :: rest) else a :: b :: rest
  | l => l

/-- Loop "Adapt exponent" (Real.hpp:342-347): the final `shift`. -/
def rightShiftAmount (exponent : Int) (shift : Nat) (first : Nat) : Nat :=
  if h : 32 ≤ first ∧ exponent < 0x7FF - (shift : Int) then rightShiftAmount exponent (shift + 1) (first / 2) else shift
termination_by first
decreasing_by omega

/-- Loop "shift right bit by bit" over `double_bytes[7..1]` (Real.hpp:350-355, 410-416). -/
def shiftRightBits (s : Nat) (db : Bytes) : Bytes :=
  [7, 6, 5, 4, 3, 2, 1].foldl (fun b j =>
    b.set j (UInt8.ofNat (((b.getD (j - 1) 0).toNat * 256 + (b.getD j 0).toNat) / 2 ^ s))) db

/-- The two loops moving whole octets (Real.hpp:400-409). -/
def shiftRightBytes (s : Nat) (db : Bytes) : Bytes :=
  let db := [7, 6, 5, 4, 3, 2, 1].foldl (fun b j => if j > s then b.set j (b.getD (j - s) 0) else b) db
  [7, 6, 5, 4, 3, 2, 1].foldl (fun b j => if j ≤ s then b.set j 0 else b) db

/-- Infinity or zero with a sign (Real.hpp:288-300, 379-391). -/
def overflowed (exponent : Int) (sign : Nat) : UInt64 :=
  if exponent ≥ 0 then (if sign = 0 then plusInf else minusInf) else (if sign = 0 then 0 else minusZero)

/-- Last part of `decode_real_binary` (Real.hpp:376-432): overflow test, denormalisation, assembly. -/
def assembleDouble (exponent : Int) (sign : Nat) (db : Bytes) : UInt64 :=
  if exponent ≥ 0x7FF ∨ exponent ≤ -55 then overflowed exponent sign
  else
    let (exponent, db) := if exponent ≤ 0 then
        let n := (-(exponent - 1)).toNat
        ((0 : Int), shiftRightBits (n % 8) (shiftRightBytes (n / 8) db))
      else (exponent, db)
    let b1 := (db.getD 1 0).toNat % 16
    let db := db.set 0 (UInt8.ofNat (sign * 128 + exponent.toNat / 16))
    let db := db.set 1 (UInt8.ofNat (exponent.toNat * 16 + b1))
    doubleOfBytes (db.take 8)

/-- `decode_real_binary` from the mantissa on (Real.hpp:303-433); `e` is the exponent, `mantissa` the octets after it. -/
def decodeMantissa (e : Int) (sign : Nat) (mantissa : Bytes) : Exec (Option UInt64) :=
  let m := skipLeadingZeros mantissa
  let db : Bytes := 0 :: (m.take 8 ++ List.replicate (8 - m.length) 0)
  -- `int += size_t` (Real.hpp:331)
  let e := (e + 8 * ((m.length : Int) - 7) + 1075).bmod (2 ^ 32)
  let first := (db.getD 1 0).toNat
  if 32 ≤ first ∧ e < 0x7FF then
    let s := rightShiftAmount e 0 first
    .ok (some (assembleDouble (e + s) sign (shiftRightBits s db)))
  else if first < 16 ∧ e > 0 then
    -- `while ((first_byte & 0xF0) == 0 && exponent > (8 - shift)) exponent -= 8 - shift;` with
    -- `shift == 8`: nothing changes and the condition is true (Real.hpp:357-374)
    .loop
  else .ok (some (assembleDouble e sign db))

/-- Conversion of a base 8 or 16 exponent to base 2 (Real.hpp:248-273), `none` if it would overflow an `int`. -/
def scaleExponent (base : Nat) (e : Int) : Option Int :=
  if base = 1 then
    (if (if e > 0 then e ≤ (2147483647 : Int).tdiv 3 else e ≥ (-2147483648 : Int).tdiv 3) then some (e * 3) else none)
  else if base = 2 then
    (if (if e > 0 then e ≤ (2147483647 : Int).tdiv 4 else e ≥ (-2147483648 : Int).tdiv 4) then some (e * 4) else none)
  else some e

/-- `decode_real_binary` (Real.hpp:207-433): the new value of `output`, if successful. -/
def decodeRealBinary (c : Bytes) : Exec (Option UInt64) := do
  if !(← checkRealBinary c) then .ok none
  else
    let (len, off) ← realExponentPos c
    if len > 4 then .ok none
    else
      let b0 ← at' c 0
      let sign := (b0 &&& 0x40).toNat / 64
      let base := (b0 &&& 0x30).toNat / 16
      let factor := (b0 &&& 0x0C).toNat / 4
      let e0 ← at' c off
      let e ← readExponent c (if (e0 &&& 0x80) ≠ 0 then -1 else 0) off off
      match scaleExponent base e with
      | none => .ok none
      | some e =>
        -- binary factor (Real.hpp:275-283)
        if e > 2147483647 - (factor : Int) then .ok none
        else
          let e := e + factor
          -- Real.hpp:285-301
          if e < -0xFFFFFF ∨ e > 0xFFFFFF then .ok (some (overflowed e sign))
          else decodeMantissa e sign (c.drop (len + off))

/-- `decode_real` (Real.hpp:129-157): the new value of `output`, if successful. -/
def decodeReal (dec : Bool → Nat → Int → UInt64) (c : Bytes) : Exec (Option UInt64) :=
  if c.length = 0 then .ok (some 0)
  else do
    let b0 ← at' c 0
    if (b0 &&& 0x80) ≠ 0 then decodeRealBinary c
    else if (b0 &&& 0xC0) = 0 then decodeRealDecimal dec c
    else decodeRealSpecial c

namespace Real

/-- `Real()` (Real.hpp:35). -/
def default (id : Ident) : Bytes := Small.init id 100

/-- `assign(double)`, `operator=(double)`, `Real(double)` (Real.hpp:36, 568-573, 583-588): encode in place into the 100
bytes after the header, then resize. -/
def assign (id : Ident) (d : Bytes) (v : UInt64) : Exec Bytes :=
  if id.headerLength 0 + 100 ≤ d.length then do
    let (n, area) ← encodeReal ((d.drop (id.headerLength 0)).take 100) v
    .ok (Small.setContentLength id (writeAt d (id.headerLength 0) area) n)
  else .ub

/-- `value()` (Real.hpp:560-566): 0.0 if the content cannot be decoded. -/
def value (dec : Bool → Nat → Int → UInt64) (id : Ident) (d : Bytes) : Exec UInt64 := do
  let c ← Small.content id d
  let r ← decodeReal dec c
  .ok (r.getD 0)

end Real

end FastBer
