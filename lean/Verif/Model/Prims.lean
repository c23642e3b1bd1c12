import Verif.Model.View
/-!
# Fixed-size primitive types: INTEGER, BOOLEAN, NULL, ENUMERATED

Models `util/SmallFixedIdBerContainer.hpp`, `ber_types/Integer.hpp`, `ber_types/Boolean.hpp`,
`ber_types/Null.hpp`, `ber_types/Enumerated.hpp` and `encoded_header` of `util/EncodeHelpers.hpp`.

The host is assumed little-endian with 8-bit bytes (as on every platform the library supports):
`memcpy` of an `int64_t` followed by `std::reverse` yields its big-endian two's complement octets.
-/
namespace FastBer

/-! ## Integer.hpp -/

/-- `int64_t` values.  (Integer.hpp:31, 36: the values of the interface) -/
def isInt64 (v : Int) : Prop := -2 ^ 63 ≤ v ∧ v < 2 ^ 63

/-- The 8 octets of an `int64_t`, most significant first (Integer.hpp:105-107). -/
def be64 (v : Int) : Bytes :=
  let n := (v % 2 ^ 64).toNat
  [lenByte n 56, lenByte n 48, lenByte n 40, lenByte n 32, lenByte n 24, lenByte n 16, lenByte n 8, lenByte n 0]

/-- First counting loop of `encode_integer` (Integer.hpp:110-120). -/
def skipZeros : Bytes → Nat
  | a :: b :: rest => if a = 0 ∧ (b &&& 0x80) = 0 then skipZeros (b :: rest) + 1 else 0
  | _ => 0

/-- Second counting loop of `encode_integer` (Integer.hpp:122-132). -/
def skipOnes : Bytes → Nat
  | a :: b :: rest => if a = 0xFF ∧ (b &&& 0x80) ≠ 0 then skipOnes (b :: rest) + 1 else 0
  | _ => 0

/-- `encode_integer` (Integer.hpp:103-142). Returns (length or 0, buffer). -/
def encodeInteger (out : Bytes) (v : Int) : Nat × Bytes :=
  let buffer := be64 v
  let toSkip := skipZeros buffer + skipOnes buffer
  let n := 8 - toSkip
  if out.length < n then (0, out) else (n, writePrefix out (buffer.drop toSkip))

/-- Copy loop of `decode_integer` (Integer.hpp:94-97): `buffer[7 - (offset + i)] = input[i]`. -/
def decodeIntegerLoop (buffer : Bytes) (pos : Nat) : Bytes → Bytes
  | [] => buffer
  | b :: rest => decodeIntegerLoop (buffer.set (7 - pos) b) (pos + 1) rest

/-- `memcpy(&output, buffer, 8)`: `int64_t` from 8 little-endian octets (Integer.hpp:98). -/
def int64OfLE (bs : Bytes) : Int :=
  let n : Nat := bs.foldr (fun b acc => b.toNat + 256 * acc) 0
  if n < 2 ^ 63 then (n : Int) else (n : Int) - 2 ^ 64

/-- `decode_integer` (Integer.hpp:75-101). Returns (success, output). -/
def decodeInteger (input : Bytes) (out0 : Int) : Bool × Int :=
  if input.length = 0 ∨ input.length > 8 then (false, out0)
  else
    let fill : UInt8 := if (input.headD 0 &&& 0x80) ≠ 0 then 0xFF else 0x00
    (true, int64OfLE (decodeIntegerLoop (List.replicate 8 fill) (8 - input.length) input))

/-! ## Shared by all primitive decoders -/

/-- `input_view` for an `Id`, `*input_view.begin()` for a `DoubleId`
(e.g. SmallFixedIdBerContainer.hpp:139-140, 161-163; Boolean.hpp:118-126). -/
def innerView (v : BerView) : Ident → Exec BerView
  | .single _ => .ok v
  | .double _ _ => do
    let it ← v.begin
    .ok it.view

/-! ## SmallFixedIdBerContainer.hpp -/

namespace Small

/-- Initial `m_data` (SmallFixedIdBerContainer.hpp:77-82). -/
def init (id : Ident) (max : Nat) : Bytes :=
  (encodeHeaderId (List.replicate (id.headerLength 0 + max) 0) 0 id .primitive).2

/-- `content_length()` (SmallFixedIdBerContainer.hpp:56). `m_header_length = encoded_header_length(0, id)`. -/
def contentLength (id : Ident) (d : Bytes) : Nat := (d.getD (id.headerLength 0 - 1) 0).toNat

/-- `set_content_length` (SmallFixedIdBerContainer.hpp:190-204). -/
def setContentLength (id : Ident) (d : Bytes) (n : Nat) : Bytes :=
  let d := d.set (id.headerLength 0 - 1) (UInt8.ofNat n)
  match id with
  | .single _ => d
  | .double o i => d.set (o.headerLength 0 - 1) (UInt8.ofNat (i.encodedLength n))

/-- `content()` (SmallFixedIdBerContainer.hpp:52-53); a span outside `m_data` is `ub`. -/
def content (id : Ident) (d : Bytes) : Exec Bytes :=
  if id.headerLength 0 + contentLength id d ≤ d.length
  then .ok ((d.drop (id.headerLength 0)).take (contentLength id d)) else .ub

/-- `ber_length()` (SmallFixedIdBerContainer.hpp:60). -/
def berLength (id : Ident) (d : Bytes) : Nat := id.headerLength 0 + contentLength id d

/-- `assign_content` (SmallFixedIdBerContainer.hpp:168-178), writing outside `m_data` is `ub`. -/
def assignContent (id : Ident) (d : Bytes) (c : Bytes) : Exec Bytes :=
  if id.headerLength 0 + c.length ≤ d.length
  then .ok (setContentLength id (writeAt d (id.headerLength 0) c) c.length) else .ub

/-- `encode` (SmallFixedIdBerContainer.hpp:206-216). -/
def encode (id : Ident) (d : Bytes) (buf : Bytes) : Exec (EncodeResult × Bytes) :=
  if buf.length < berLength id d then .ok (.fail, buf)
  else if berLength id d ≤ d.length then .ok (⟨true, berLength id d⟩, writePrefix buf (d.take (berLength id d)))
  else .ub

/-- `decode` / `decode_impl` (SmallFixedIdBerContainer.hpp:128-166, 218-222).  The conjunction tested
there is `has_correct_header` (same conditions, same order) and the size test. -/
def decode (id : Ident) (max : Nat) (d : Bytes) (v : BerView) : Exec (Bool × Bytes) := do
  if !(← hasCorrectHeader v id .primitive) then .ok (false, d)
  else
    let w ← innerView v id
    if w.len > max then .ok (false, d)
    else
      let c ← w.content
      let d' ← assignContent id d c
      .ok (true, d')

end Small

/-! ## Integer<Identifier>: `m_contents` is a `SmallFixedIdBerContainer<Identifier, 8>` -/

namespace Integer

/-- `Integer()` (Integer.hpp:30). -/
def default (id : Ident) : Exec Bytes := Small.assignContent id (Small.init id 8) [0x00]

/-- `value()` (Integer.hpp:151-156). -/
def value (id : Ident) (d : Bytes) : Exec Int := do
  let c ← Small.content id d
  .ok (decodeInteger c 0).2

/-- `assign(int64_t)` (Integer.hpp:173-177): encode in place, then resize. -/
def assign (id : Ident) (d : Bytes) (v : Int) : Exec Bytes :=
  if id.headerLength 0 + 8 ≤ d.length then
    let area := (d.drop (id.headerLength 0)).take 8
    let (n, area') := encodeInteger area v
    .ok (Small.setContentLength id (writeAt d (id.headerLength 0) area') n)
  else .ub

/-- `Integer(int64_t)` (Integer.hpp:31). -/
def ofInt (id : Ident) (v : Int) : Exec Bytes := assign id (Small.init id 8) v

/-- `assign(const Integer<Identifier2>&)`, `operator=` and the converting constructor
(Integer.hpp:144-148, 165-171, 179-184): content is copied. -/
def assignFrom (id id2 : Ident) (d d2 : Bytes) : Exec Bytes := do
  let c ← Small.content id2 d2
  Small.assignContent id d c

/-- `encoded_length()`, `encode`, `decode` (Integer.hpp:64-66). -/
def encodedLength (id : Ident) (d : Bytes) : Nat := Small.berLength id d
/-- See `encodedLength` (Integer.hpp:64-66). -/
def encode (id : Ident) (d buf : Bytes) : Exec (EncodeResult × Bytes) := Small.encode id d buf
/-- See `encodedLength` (Integer.hpp:64-66). -/
def decode (id : Ident) (d : Bytes) (v : BerView) : Exec (Bool × Bytes) := Small.decode id 8 d v

end Integer

/-! ## Boolean<Identifier> -/

/-- `encoded_header<Identifier, n>()` (util/EncodeHelpers.hpp:32-39). -/
def encodedHeaderArray (id : Ident) (n : Nat) : Bytes :=
  (encodeHeaderId (List.replicate (id.encodedLength n) 0) n id .primitive).2

/-- `memcpy` of a whole fixed array to the output if it fits (Boolean.hpp:98-108, Null.hpp:69-79). -/
def encodeArray (d buf : Bytes) : EncodeResult × Bytes :=
  if buf.length < d.length then (.fail, buf) else (⟨true, d.length⟩, writePrefix buf d)

namespace Boolean

/-- `Boolean()` (Boolean.hpp:25, 54). -/
def default (id : Ident) : Bytes := encodedHeaderArray id 1

/-- `m_data.back() = b`.  (Boolean.hpp:61, 75, 82, 89, 120, 125) -/
def setBack (d : Bytes) (b : UInt8) : Bytes := d.set (d.length - 1) b

/-- `value()` (Boolean.hpp:33). -/
def value (d : Bytes) : Bool := d.getLastD 0 != 0

/-- `assign(bool)` (Boolean.hpp:79-83). -/
def assign (d : Bytes) (v : Bool) : Bytes := setBack d (if v then 0xFF else 0x00)

/-- `assign(const Boolean<Identifier2>&)` and friends (Boolean.hpp:57-62, 71-77, 85-90). -/
def assignFrom (d d2 : Bytes) : Bytes := setBack d (d2.getLastD 0)

/-- `encoded_length()` (Boolean.hpp:92-96). -/
def encodedLength (id : Ident) : Nat := id.encodedLength 1

/-- `encode` (Boolean.hpp:98-108). -/
def encode (d buf : Bytes) : EncodeResult × Bytes := encodeArray d buf

/-- `decode` (Boolean.hpp:110-129). -/
def decode (id : Ident) (d : Bytes) (v : BerView) : Exec (Bool × Bytes) := do
  if !(← hasCorrectHeader v id .primitive) then .ok (false, d)
  else
    let w ← innerView v id
    if w.len = 1 then
      let c ← w.content
      .ok (true, setBack d (c.headD 0))
    else .ok (false, d)

end Boolean

namespace Null

/-- `Null()` (Null.hpp:20, 60). -/
def default (id : Ident) : Bytes := encodedHeaderArray id 0
/-- `encoded_length()` (Null.hpp:63-67). -/
def encodedLength (id : Ident) : Nat := id.encodedLength 0
/-- `encode` (Null.hpp:69-79). -/
def encode (d buf : Bytes) : EncodeResult × Bytes := encodeArray d buf
/-- `decode` (Null.hpp:81-98). -/
def decode (id : Ident) (d : Bytes) (v : BerView) : Exec (Bool × Bytes) := do
  if !(← hasCorrectHeader v id .primitive) then .ok (false, d)
  else
    let w ← innerView v id
    .ok (decide (w.len = 0), d)

end Null

/-! ## Enumerated<EnumeratedType, Identifier>: `m_val` is an `Integer<Identifier>`
(Enumerated.hpp:69).  An enumeration is represented by the set of its enumerators' values; its
underlying type is `int`, `long` or `long long` and `static_cast` to `int64_t` is value-preserving. -/

namespace Enumerated

/-- `Enumerated()` (Enumerated.hpp:16). -/
def default (id : Ident) : Exec Bytes := Integer.default id
/-- `assign(EnumeratedType)` (Enumerated.hpp:57). -/
def assign (id : Ident) (d : Bytes) (v : Int) : Exec Bytes := Integer.assign id d v
/-- `value()` (Enumerated.hpp:27): `static_cast` to an enumeration whose underlying type has `bits`
bits (two's complement truncation). -/
def value (id : Ident) (bits : Nat) (d : Bytes) : Exec Int := do
  let v ← Integer.value id d
  .ok (v.bmod (2 ^ bits))
/-- Calls the function of the `Integer` it holds (Enumerated.hpp:64-69, Integer.hpp:64-66). -/
def encodedLength (id : Ident) (d : Bytes) : Nat := Integer.encodedLength id d
/-- Calls the function of the `Integer` it holds (Enumerated.hpp:64-69, Integer.hpp:64-66). -/
def encode (id : Ident) (d buf : Bytes) : Exec (EncodeResult × Bytes) := Integer.encode id d buf
/-- Calls the function of the `Integer` it holds (Enumerated.hpp:64-69, Integer.hpp:64-66). -/
def decode (id : Ident) (d : Bytes) (v : BerView) : Exec (Bool × Bytes) := Integer.decode id d v

end Enumerated

end FastBer
