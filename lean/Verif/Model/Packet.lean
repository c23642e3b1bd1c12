import Verif.Model.Container
/-!
# `BerContainer`: an owned BER packet

Models `util/BerContainer.hpp` (paths relative to `include/fast_ber`).  `absl::InlinedVector<uint8_t, 100>` is a list of bytes; allocation
never fails; its `data()` is never null (an empty vector points to its inline storage).  Arguments that alias the container's own storage
are not modelled.
-/
namespace FastBer

/-- Where `m_view` (a `MutableBerView`, BerView.hpp:65-85) points, with its `m_tag`, `m_header_length`, `m_content_length`. -/
inductive PacketView where
  /-- `m_data == nullptr`; both lengths are 0 (BerView.hpp:203-209, 58-61). -/
  | null (tag : Int)
  /-- At the first byte of the container's own vector. -/
  | own (tag : Int) (hdr len : Nat)
  /-- At memory that the container does not hold any more (after having been moved from). -/
  | stale (tag : Int) (hdr len : Nat)
  deriving Repr, DecidableEq

/-- `class BerContainer` (util/BerContainer.hpp:25-71): `m_data`, `m_view`. -/
structure Packet where
  data : Bytes
  at_ : PacketView
  deriving Repr, DecidableEq

namespace Packet

/-- `view()` (util/BerContainer.hpp:63): what can be read through `m_view`.  The memory of a stale view belongs to somebody else; reading it
is `ub` here. -/
def view (p : Packet) : BerView :=
  match p.at_ with
  | .null t => .invalid t
  | .own t h l => ⟨true, p.data, t, h, l⟩
  | .stale t h l => ⟨true, [], t, h, l⟩

/-- `BerContainer()` (util/BerContainer.hpp:73-76). -/
def default : Packet := ⟨[0, 0], .own 0 2 0⟩

/-- The members before the body of the other constructors runs (util/BerContainer.hpp:29-31, 95-99). -/
def blank : Packet := ⟨[], .null 0⟩

/-- `is_valid()` (util/BerContainer.hpp:46). -/
def isValid (p : Packet) : Bool := p.view.valid

/-- `decode` (util/BerContainer.hpp:165-180). -/
def decode (p : Packet) (v : BerView) : Exec (Bool × Packet) := do
  if !v.valid then
    let w ← BerView.assign [] p.view.tag
    .ok (false, ⟨[], if w.valid then .own w.tag w.hdr w.len else .null w.tag⟩)
  else
    let b ← v.ber
    .ok (true, ⟨b, .own v.tag v.hdr v.len⟩)

/-- `BerContainer(BerView)`, and the copy and move constructors with the view of the other container (util/BerContainer.hpp:29-31). -/
def ofView (v : BerView) : Exec Packet := do
  let r ← decode blank v
  .ok r.2

/-- `assign_content(span)` (util/BerContainer.hpp:115-127). -/
def assignContent (p : Packet) (x : Bytes) : Packet :=
  let d := vecResize p.data (15 + x.length)
  let d := d.set 0 0
  let (n, tail) := encodeLength (d.drop 1) x.length
  let h := 1 + n
  let d := vecResize (d.take 1 ++ tail) (h + x.length)
  ⟨writeAt d h x, .own 0 h x.length⟩

/-- `MutableBerView::assign(span, header_length, content_length)` on the vector (BerView.hpp:216-221). -/
def pointTo (p : Packet) (d : Bytes) (h n : Nat) : Exec Packet := do
  let r ← extractTag d p.view.tag
  .ok ⟨d, .own r.2 h n⟩

/-- `assign_content(construction, class, tag, span)` (util/BerContainer.hpp:129-141). -/
def assignElement (p : Packet) (k : Construction) (c : Class) (t : Int) (x : Bytes) : Exec Packet :=
  let d := vecResize p.data (30 + x.length)
  let (h, d) := encodeHeader d k c t x.length
  let d := vecResize d (h + x.length)
  pointTo p (writeAt d h x) h x.length

/-- `BerContainer(construction, class, tag, span)` (util/BerContainer.hpp:95-99). -/
def ofElement (k : Construction) (c : Class) (t : Int) (x : Bytes) : Exec Packet := assignElement blank k c t x

/-- `BerContainer(span, method)` (util/BerContainer.hpp:78-93). -/
def ofSpan (x : Bytes) (isPacket : Bool) : Exec Packet := do
  let w ← BerView.parse x
  let p : Packet := ⟨x, if w.valid then .own w.tag w.hdr w.len else .null w.tag⟩
  if isPacket then
    let v ← BerView.parse x
    let r ← decode p v
    .ok r.2
  else .ok (assignContent p x)

/-- `resize_content` (util/BerContainer.hpp:143-161).  The source range of the `memmove` must be inside the already resized vector. -/
def resizeContent (p : Packet) (n : Nat) : Exec Packet :=
  let oldH := p.view.hdr
  let off := p.view.identifierLength
  let (ll, buf) := encodeLength (List.replicate 20 0) n
  let newH := off + ll
  let d := vecResize p.data (newH + n)
  let m := min p.view.len n
  if oldH + m ≤ d.length then
    let d := writeAt d newH ((d.drop oldH).take m)
    let d := writeAt d off (buf.take ll)
    pointTo p d newH n
  else .ub

/-- Copy assignment (util/BerContainer.hpp:101-106): the view is pointed at the vector whether or not the other one was valid. -/
def copyFrom (_dst src : Packet) : Packet := ⟨src.data, .own src.view.tag src.view.hdr src.view.len⟩

/-- Destination of a move assignment (util/BerContainer.hpp:108-113). -/
def moveFrom (_dst src : Packet) : Packet := ⟨src.data, .own src.view.tag src.view.hdr src.view.len⟩

/-- Source of a move assignment: `InlinedVector` leaves it empty, `m_view` is not touched. -/
def movedFrom (src : Packet) : Packet := ⟨[], .stale src.view.tag src.view.hdr src.view.len⟩

/-- `encode` (util/BerContainer.hpp:163). -/
def encode (p : Packet) (buf : Bytes) : Exec (EncodeResult × Bytes) := p.view.encode buf

end Packet

end FastBer
