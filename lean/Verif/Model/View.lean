import Verif.Model.Header
/-!
# BerView, iterators and encode/decode helpers

Models `util/BerView.hpp`, `util/EncodeHelpers.hpp`, `util/DecodeHelpers.hpp`.
-/
namespace FastBer

/-- `class BerView` (util/BerView.hpp:23-63).  `mem` is the memory that may be read through
`m_data`: the bytes from `m_data` to the end of the span the view was built from.  An invalid view
has `m_data == nullptr`, modelled by `valid = false` and `mem = []`. -/
structure BerView where
  valid : Bool
  mem : Bytes
  tag : Int
  hdr : Nat
  len : Nat
  deriving Repr, DecidableEq

/-- State of a view after a failed `assign` (util/BerView.hpp:203-209); `m_tag` keeps whatever
`extract_tag` stored. -/
def BerView.invalid (tag : Int) : BerView := ⟨false, [], tag, 0, 0⟩

/-- `BerView()` (util/BerView.hpp:26, 59-62). -/
def BerView.empty : BerView := BerView.invalid 0

/-- `BerView::assign(span)` (util/BerView.hpp:194-214); `tag0` is the previous `m_tag`.
`header + content` is a `size_t` sum and wraps; `input_tag_length + input_len_length` is at most
`input.length + 9` and is not reduced (an object of 2^64 - 9 bytes cannot exist). -/
def BerView.assign (input : Bytes) (tag0 : Int) : Exec BerView := do
  let (tagLen, tag) ← extractTag input tag0
  let (lenLen, contentLen) ← extractLength input 0 tagLen
  let hdr := tagLen + lenLen
  let complete := u64 (hdr + contentLen)
  if tagLen = 0 ∨ lenLen = 0 ∨ complete > input.length then
    .ok (BerView.invalid tag)
  else
    .ok ⟨true, input, tag, hdr, contentLen⟩

/-- `BerView(span)` (util/BerView.hpp:27): fresh view, `m_tag = 0`. -/
def BerView.parse (input : Bytes) : Exec BerView := BerView.assign input 0

namespace BerView

/-- `ber_length()` (util/BerView.hpp:51), `size_t` sum. -/
def berLength (v : BerView) : Nat := u64 (v.hdr + v.len)

/-- `content()` (util/BerView.hpp:46-47).  A span reaching outside the memory of the view is `ub`
(the model flags it when the span is formed; the C++ flags nothing until it is read). -/
def content (v : BerView) : Exec Bytes :=
  if v.hdr + v.len ≤ v.mem.length then .ok ((v.mem.drop v.hdr).take v.len) else .ub

/-- `ber()` (util/BerView.hpp:49-50). -/
def ber (v : BerView) : Exec Bytes :=
  if v.berLength ≤ v.mem.length then .ok (v.mem.take v.berLength) else .ub

/-- `class_()` (util/BerView.hpp:41) reads `m_data[0]`. -/
def cls (v : BerView) : Exec Class :=
  match v.mem with
  | [] => .ub
  | b :: _ => .ok (getClass b)

/-- `construction()` (util/BerView.hpp:39) reads `m_data[0]`. -/
def construction (v : BerView) : Exec Construction :=
  match v.mem with
  | [] => .ub
  | b :: _ => .ok (getConstruction b)

/-- `identifier()` (util/BerView.hpp:40). -/
def identifier (v : BerView) : Exec Id := do
  let c ← v.cls
  .ok ⟨c, v.tag⟩

/-- `identifier_length()` (util/BerView.hpp:43). -/
def identifierLength (v : BerView) : Nat := encodedTagLength v.tag

end BerView

/-- `class BerViewIterator` (util/BerView.hpp:87-131). -/
structure Iter where
  buf : Bytes
  view : BerView
  deriving Repr, DecidableEq

/-- `BerViewIterator(span)` (util/BerView.hpp:90). -/
def Iter.mk' (buf : Bytes) : Exec Iter := do
  let v ← BerView.parse buf
  .ok ⟨buf, v⟩

/-- `BerView::begin()` (util/BerView.hpp:232). -/
def BerView.begin (v : BerView) : Exec Iter := do
  let c ← v.content
  Iter.mk' c

/-- `operator++` (util/BerView.hpp:93-103).  `remove_prefix` beyond the end is `ub`. -/
def Iter.next (it : Iter) : Exec Iter := do
  if it.view.berLength > it.buf.length then .ub
  else
    let buf := it.buf.drop it.view.berLength
    let v ← BerView.assign buf it.view.tag
    .ok ⟨buf, v⟩

/-- `for (it = Iter(buf); it != end; ++it)` collecting the children: the comparison with `end()`
(util/BerView.hpp:108-118) is true exactly when the view is invalid, since the end iterator has a
null buffer.  A valid child of length 0 (possible only by wrap-around) makes `++` a no-op, so the
iteration never ends: `loop`. -/
def iterate (buf : Bytes) (tag0 : Int) : Exec (List BerView) :=
  match BerView.assign buf tag0 with
  | .ub => .ub
  | .loop => .loop
  | .ok v =>
    if v.valid then
      if _h : 0 < v.berLength ∧ 0 < buf.length then do
        let rest ← iterate (buf.drop v.berLength) v.tag
        .ok (v :: rest)
      else .loop
    else .ok []
termination_by buf.length
decreasing_by simp; omega

/-- `EncodeResult` (util/EncodeHelpers.hpp:15-19). -/
structure EncodeResult where
  success : Bool
  length : Nat
  deriving Repr, DecidableEq

/-- `EncodeResult{false, 0}` (util/EncodeHelpers.hpp:15-19). -/
def EncodeResult.fail : EncodeResult := ⟨false, 0⟩

/-- `BerView::encode` (util/BerView.hpp:239-248). -/
def BerView.encode (v : BerView) (buf : Bytes) : Exec (EncodeResult × Bytes) := do
  if v.berLength > buf.length then .ok (.fail, buf)
  else
    let b ← v.ber
    .ok (⟨true, v.berLength⟩, writePrefix buf b)

/-! ## EncodeHelpers.hpp -/

/-- `encode_header(buffer, content_length, Id, construction)` (util/EncodeHelpers.hpp:21-30). -/
def encodeHeaderSingle (buf : Bytes) (n : Nat) (id : Id) (con : Construction) : EncodeResult × Bytes :=
  let (h, buf') := encodeHeader buf con id.cls id.tag n
  if h = 0 then (.fail, buf') else (⟨true, h + n⟩, buf')

/-- `encode_header(buffer, content_length, Id / DoubleId, construction)`
(util/EncodeHelpers.hpp:21-30, 41-58). -/
def encodeHeaderId (buf : Bytes) (n : Nat) (id : Ident) (con : Construction) : EncodeResult × Bytes :=
  match id with
  | .single i => encodeHeaderSingle buf n i con
  | .double o i =>
    let ih := i.headerLength n
    let oh := o.headerLength (ih + n)
    if buf.length < oh + ih + n then (.fail, buf)
    else
      let (_, inner) := encodeHeaderSingle (buf.drop oh) n i con
      encodeHeaderSingle (buf.take oh ++ inner) (ih + n) o .constructed

/-- `wrap_with_ber_header` (util/EncodeHelpers.hpp:67-83).  The `memmove` source range must be
inside the buffer (the code only asserts this), otherwise `ub`. -/
def wrapWithBerHeader (buf : Bytes) (n : Nat) (id : Ident) (offset : Nat) (con : Construction) :
    Exec (EncodeResult × Bytes) :=
  let h := id.headerLength n
  if h + n > buf.length then .ok (.fail, buf)
  else if offset + n > buf.length then .ub
  else
    let buf' := if offset ≠ h then writeAt buf h ((buf.drop offset).take n) else buf
    .ok (encodeHeaderId buf' n id con)

/-! ## DecodeHelpers.hpp -/

/-- `has_correct_header` (util/DecodeHelpers.hpp:35-47), with the short-circuit order of `&&`. -/
def hasCorrectHeader (v : BerView) (id : Ident) (con : Construction) : Exec Bool :=
  match id with
  | .single i => do
    if !v.valid then .ok false
    else
      let c ← v.cls
      let k ← v.construction
      .ok (c == i.cls && v.tag == i.tag && k == con)
  | .double o i => do
    if !v.valid then .ok false
    else
      let vid ← v.identifier
      let k ← v.construction
      if vid != o then .ok false
      else if k != .constructed then .ok false
      else
        let it ← v.begin
        if !it.view.valid then .ok false
        else
          let iid ← it.view.identifier
          let ik ← it.view.construction
          .ok (iid == i && ik == con)

end FastBer
