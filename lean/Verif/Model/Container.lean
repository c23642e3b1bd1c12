import Verif.Model.Prims
/-!
# Variable-size container: OCTET STRING and all the string types

Models `util/FixedIdBerContainer.hpp`; `ber_types/StringImpl.hpp` only forwards to it.
`absl::InlinedVector<uint8_t>` is a list of bytes; allocation never fails.  Arguments that alias the
container's own storage (assigning a string its own content) are not modelled.
-/
namespace FastBer

/-- `class FixedIdBerContainer` (util/FixedIdBerContainer.hpp:22-76): `m_data`, `m_content_length`. -/
structure Cont where
  data : Bytes
  len : Nat
  deriving Repr, DecidableEq

/-- `InlinedVector::resize`: truncate or append zero bytes. -/
def vecResize (d : Bytes) (n : Nat) : Bytes := d.take n ++ List.replicate (n - d.length) 0

namespace Cont

/-- `FixedIdBerContainer()` (util/FixedIdBerContainer.hpp:78-83). -/
def default (id : Ident) : Cont :=
  ⟨(encodeHeaderId (vecResize [] (id.encodedLength 0)) 0 id .primitive).2, 0⟩

/-- `content()` (util/FixedIdBerContainer.hpp:49-52): the last `m_content_length` bytes of `m_data`. -/
def content (c : Cont) : Exec Bytes :=
  if c.len ≤ c.data.length then .ok (c.data.drop (c.data.length - c.len)) else .ub

/-- `size()`/`length()` (StringImpl.hpp:71-72, util/FixedIdBerContainer.hpp:53). -/
def size (c : Cont) : Nat := c.len

/-- `encoded_length()` (util/FixedIdBerContainer.hpp:64, StringImpl.hpp:87). -/
def encodedLength (c : Cont) : Nat := c.data.length

/-- `operator==` (StringImpl.hpp:137-141, 59). -/
def eq (a b : Cont) : Exec Bool := do
  let x ← a.content
  let y ← b.content
  .ok (x == y)

/-- `assign_content` (util/FixedIdBerContainer.hpp:210-222). -/
def assignContent (id : Ident) (c : Cont) (input : Bytes) : Cont :=
  let encodedLen := id.encodedLength input.length
  let headerLen := encodedLen - input.length
  let d := vecResize c.data encodedLen
  let d := writeAt d headerLen input
  ⟨(encodeHeaderId d input.length id .primitive).2, input.length⟩

/-- `resize_content` (util/FixedIdBerContainer.hpp:224-238).  `old_header_length` is a `size_t`
difference (`ub` when it underflows: the `memmove` source would lie before the vector); the source
range must be inside the already resized vector. -/
def resizeContent (id : Ident) (c : Cont) (n : Nat) : Exec Cont :=
  if c.data.length < c.len then .ub
  else
    let oldH := c.data.length - c.len
    let newH := id.headerLength n
    let d := vecResize c.data (newH + n)
    let m := min c.len n
    if oldH + m ≤ d.length then
      let d := writeAt d newH ((d.drop oldH).take m)
      .ok ⟨(encodeHeaderId d n id .primitive).2, n⟩
    else .ub

/-- `encode` (util/FixedIdBerContainer.hpp:240-250). -/
def encode (c : Cont) (buf : Bytes) : EncodeResult × Bytes :=
  if buf.length < c.data.length then (.fail, buf)
  else (⟨true, c.data.length⟩, writePrefix buf c.data)

/-- `FAST_BER_ERROR` arguments of the two `decode_impl`s (util/FixedIdBerContainer.hpp:170-178,
193-202): what is evaluated before the decode fails. -/
def decodeError (v : BerView) : Ident → Exec Unit
  | .single _ => do
    if !v.valid then .ok ()
    else
      let _ ← v.identifier
      .ok ()
  | .double _ _ => do
    if !v.valid then .ok ()
    else
      let it ← v.begin
      if !it.view.valid then .ok ()
      else
        let _ ← v.identifier
        let _ ← it.view.identifier
        .ok ()

/-- `decode` / `decode_impl` (util/FixedIdBerContainer.hpp:164-208, 252-256). -/
def decode (id : Ident) (c : Cont) (v : BerView) : Exec (Bool × Cont) := do
  if !(← hasCorrectHeader v id .primitive) then
    let _ ← decodeError v id
    .ok (false, c)
  else
    let b ← v.ber
    let w ← innerView v id
    .ok (true, ⟨b, w.len⟩)

/-- Copy assignment/construction with the same identifier (util/FixedIdBerContainer.hpp:85-89,
137-144) and the destination of a move (91-95, 146-153). -/
def copyFrom (_dst src : Cont) : Cont := src

/-- Copy with another identifier (util/FixedIdBerContainer.hpp:123-128, 155-162; StringImpl.hpp:180-185). -/
def assignFrom (id : Ident) (dst src : Cont) : Exec Cont := do
  let s ← src.content
  .ok (assignContent id dst s)

/-- Source of a move construction (util/FixedIdBerContainer.hpp:91-95): `InlinedVector`'s move
constructor leaves the source empty, `std::move` of a `size_t` is a copy. -/
def movedFrom (src : Cont) : Cont := ⟨[], src.len⟩

end Cont

end FastBer
