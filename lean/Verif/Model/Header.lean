import Verif.Base
/-!
# Identifier and length octets

Models `ber_types/Class.hpp`, `ber_types/Construction.hpp`, `ber_types/Identifier.hpp`,
`util/Extract.hpp` and `util/EncodeIdentifiers.hpp` (paths relative to `include/fast_ber`).
-/
namespace FastBer

/-- `enum class Class` (ber_types/Class.hpp:9-15). -/
inductive Class where
  | universal | application | contextSpecific | private_
  deriving Repr, DecidableEq

/-- `static_cast<uint8_t>(class_)` (ber_types/Class.hpp:9-15). -/
def Class.toNat : Class → Nat
  | .universal => 0 | .application => 1 | .contextSpecific => 2 | .private_ => 3

/-- `enum class Construction` (ber_types/Construction.hpp:9-13). -/
inductive Construction where
  | primitive | constructed
  deriving Repr, DecidableEq

/-- `static_cast<uint8_t>(construction)` (ber_types/Construction.hpp:9-13). -/
def Construction.toNat : Construction → Nat
  | .primitive => 0 | .constructed => 1

/-- `get_class` (ber_types/Class.hpp:20). -/
def getClass (b : UInt8) : Class :=
  match (b >>> 6).toNat with
  | 0 => .universal | 1 => .application | 2 => .contextSpecific | _ => .private_

/-- `add_class` (ber_types/Class.hpp:22-25). -/
def addClass (b : UInt8) (c : Class) : UInt8 :=
  (UInt8.ofNat c.toNat <<< 6) ||| (b &&& 0x3F)

/-- `get_construction` (ber_types/Construction.hpp:18-21). -/
def getConstruction (b : UInt8) : Construction :=
  if (b &&& 0x20) ≠ 0 then .constructed else .primitive

/-- `add_construction` (ber_types/Construction.hpp:23-28). -/
def addConstruction (b : UInt8) (c : Construction) : UInt8 :=
  (UInt8.ofNat c.toNat <<< 5) ||| (b &&& 0xDF)

/-- `struct Id<class_, tag>` (ber_types/Identifier.hpp:30-39) and `RuntimeId` (ibid. 14-28).
Template parameters are fields.  `Tag` is `int64_t` (Tag.hpp:9). -/
structure Id where
  cls : Class
  tag : Int
  deriving Repr, DecidableEq

/-- `Id<..>` or `DoubleId<Outer, Inner>` (ber_types/Identifier.hpp:30-51).  Both arguments of
`DoubleId` are `Id`s everywhere in the library and in generated code. -/
inductive Ident where
  | single (id : Id)
  | double (outer inner : Id)
  deriving Repr, DecidableEq

/-- `class_()/tag()` of an identifier: the outer one (Identifier.hpp:34-35, 44-45, 117-139). -/
def Ident.outer : Ident → Id
  | .single i => i
  | .double o _ => o

/-- `inner_identifier` (Identifier.hpp:81-127). -/
def Ident.inner : Ident → Id
  | .single i => i
  | .double _ i => i

/-- `check_id_match` (Identifier.hpp:38, 50). -/
def Ident.checkIdMatch (i : Ident) (c : Class) (t : Int) : Bool :=
  c == i.outer.cls && t == i.outer.tag

/-! ## Extract.hpp -/

/-- Loop of `extract_tag` (util/Extract.hpp:93-103).  `i` bytes are already consumed, `tag` is the
accumulator.  `int64_t` overflow of `tag *= 0x80` or `tag += ..` is undefined behaviour.  Returns
the number of octets (0 on failure) and the tag. -/
def extractTagLoop (i : Nat) (tag : Int) : Bytes → Exec (Nat × Int)
  | [] => .ok (0, tag)
  | b :: rest =>
    let tag := tag + (b &&& 0x7F).toNat
    if tag ≥ 2 ^ 63 then .ub
    else if (b &&& 0x80) == 0 then .ok (i + 1, tag)
    else if tag * 0x80 ≥ 2 ^ 63 then .ub
    else extractTagLoop (i + 1) (tag * 0x80) rest

/-- `extract_tag` (util/Extract.hpp:78-106).  `tag0` is the previous value of the out parameter,
which is kept when the input is empty. -/
def extractTag (input : Bytes) (tag0 : Int) : Exec (Nat × Int) :=
  match input with
  | [] => .ok (0, tag0)
  | b :: rest =>
    if (b &&& 0x1F) ≠ 0x1F then .ok (1, ((b &&& 0x1F).toNat : Int))
    else extractTagLoop 1 0 rest

/-- Loop of `extract_length` (util/Extract.hpp:128-133), `size_t` arithmetic. -/
def extractLengthLoop (len : Nat) : Bytes → Nat
  | [] => len
  | b :: rest => extractLengthLoop (u64 (u64 (len * 0x100) + b.toNat)) rest

/-- `extract_length` (util/Extract.hpp:108-135).  Returns (octets consumed or 0, length).  The out
parameter keeps its previous value `len0` on failure.  `remove_prefix` beyond the end is `ub`. -/
def extractLength (input : Bytes) (len0 : Nat) (offset : Nat) : Exec (Nat × Nat) :=
  if offset > input.length then .ub
  else
    match input.drop offset with
    | [] => .ok (0, len0)
    | b :: rest =>
      if (b &&& 0x80) == 0 then .ok (1, b.toNat)
      else
        let n := (b &&& 0x7F).toNat
        if n > 8 ∨ n = 0 ∨ n + 1 > rest.length + 1 then .ok (0, len0)
        else .ok (n + 1, extractLengthLoop 0 (rest.take n))

/-- `extract_class` (util/Extract.hpp:43-52). -/
def extractClass : Bytes → Option Class
  | [] => none
  | b :: _ => some (getClass b)

/-- `extract_construction` (util/Extract.hpp:32-41). -/
def extractConstruction : Bytes → Option Construction
  | [] => none
  | b :: _ => some (getConstruction b)

/-! ## EncodeIdentifiers.hpp -/

/-- `add_short_tag` (util/EncodeIdentifiers.hpp:60-63). -/
def addShortTag (b : UInt8) (tag : Nat) : UInt8 := UInt8.ofNat tag ||| (b &&& 0xE0)

/-- `std::reverse(output.data() + 1, output.data() + 1 + i)` (util/EncodeIdentifiers.hpp:93). -/
def reverseFrom1 (out : Bytes) (i : Nat) : Bytes :=
  out.take 1 ++ ((out.drop 1).take i).reverse ++ out.drop (1 + i)

/-- Loop of `encode_tag` (util/EncodeIdentifiers.hpp:81-96): digits are written least significant
first at index `i`, then reversed. -/
def encodeTagLoop (out : Bytes) (i : Nat) (tag : Nat) : Nat × Bytes :=
  if h : i < out.length then
    let d := UInt8.ofNat (tag % 0x80)
    let tag' := tag / 0x80
    let d := if i ≠ 1 then d ||| 0x80 else d
    let out' := out.set i d
    if tag' = 0 then (i + 1, reverseFrom1 out' i)
    else encodeTagLoop out' (i + 1) tag'
  else (0, out)
termination_by out.length - i
decreasing_by simp; omega

/-- `encode_tag` (util/EncodeIdentifiers.hpp:65-99). Returns (size or 0, buffer). -/
def encodeTag (out : Bytes) (tag : Int) : Nat × Bytes :=
  if tag < 0 then (0, out)
  else
    match out with
    | [] => (0, out)
    | b :: rest =>
      if tag ≤ 30 then (1, addShortTag b tag.toNat :: rest)
      else encodeTagLoop ((b ||| 0x1F) :: rest) 1 tag.toNat

/-- `encoded_tag_length` (util/EncodeIdentifiers.hpp:104-117). -/
def encodedTagLength (tag : Int) : Nat :=
  if tag < 0 then 0
  else if tag ≤ 30 then 1
  else if tag < 128 then 2
  else if tag < 16384 then 3
  else if tag < 2097152 then 4
  else if tag < 268435456 then 5
  else if tag < 34359738368 then 6
  else if tag < 4398046511104 then 7
  else if tag < 562949953421312 then 8
  else if tag < 72057594037927936 then 9
  else 10

/-- `encode_identifier` (util/EncodeIdentifiers.hpp:129-142). -/
def encodeIdentifier (out : Bytes) (con : Construction) (cls : Class) (tag : Int) : Nat × Bytes :=
  match out with
  | [] => (0, out)
  | _ :: rest => encodeTag (addClass (addConstruction 0 con) cls :: rest) tag

/-- `(length >> s) & 0xFF` stored in a `uint8_t`.  (util/EncodeIdentifiers.hpp:161-182) -/
def lenByte (length s : Nat) : UInt8 := UInt8.ofNat (length >>> s)

/-- `encode_length` (util/EncodeIdentifiers.hpp:157-242). `length` is a `uint64_t`. -/
def encodeLength (out : Bytes) (length : Nat) : Nat × Bytes :=
  if length < 0x80 ∧ out.length > 0 then
    (1, writePrefix out [lenByte length 0])
  else if length ≤ 0xFF ∧ out.length > 1 then
    (2, writePrefix out [0x81, lenByte length 0])
  else if length ≤ 0xFFFF ∧ out.length > 2 then
    (3, writePrefix out [0x82, lenByte length 8, lenByte length 0])
  else if length ≤ 0xFFFFFF ∧ out.length > 3 then
    (4, writePrefix out [0x83, lenByte length 16, lenByte length 8, lenByte length 0])
  else if length ≤ 0xFFFFFFFF ∧ out.length > 4 then
    (5, writePrefix out [0x84, lenByte length 24, lenByte length 16, lenByte length 8, lenByte length 0])
  else if length ≤ 0xFFFFFFFFFF ∧ out.length > 5 then
    (6, writePrefix out [0x85, lenByte length 32, lenByte length 24, lenByte length 16, lenByte length 8,
      lenByte length 0])
  else if length ≤ 0xFFFFFFFFFFFF ∧ out.length > 6 then
    (7, writePrefix out [0x86, lenByte length 40, lenByte length 32, lenByte length 24, lenByte length 16,
      lenByte length 8, lenByte length 0])
  else if length ≤ 0xFFFFFFFFFFFFFF ∧ out.length > 7 then
    (8, writePrefix out [0x87, lenByte length 48, lenByte length 40, lenByte length 32, lenByte length 24,
      lenByte length 16, lenByte length 8, lenByte length 0])
  else if out.length > 8 then
    (9, writePrefix out [0x88, lenByte length 56, lenByte length 48, lenByte length 40, lenByte length 32,
      lenByte length 24, lenByte length 16, lenByte length 8, lenByte length 0])
  else (0, out)

/-- `encoded_length_length` (util/EncodeIdentifiers.hpp:244-255). -/
def encodedLengthLength (length : Nat) : Nat :=
  if length < 0x80 then 1
  else if length ≤ 0xFF then 2
  else if length ≤ 0xFFFF then 3
  else if length ≤ 0xFFFFFF then 4
  else if length ≤ 0xFFFFFFFF then 5
  else if length ≤ 0xFFFFFFFFFF then 6
  else if length ≤ 0xFFFFFFFFFFFF then 7
  else if length ≤ 0xFFFFFFFFFFFFFF then 8
  else 9

/-- `encode_header` (util/EncodeIdentifiers.hpp:257-275).  On a too short buffer the bytes already
written stay (the returned buffer shows them). -/
def encodeHeader (out : Bytes) (con : Construction) (cls : Class) (tag : Int) (length : Nat) : Nat × Bytes :=
  if out.length < 2 then (0, out)
  else
    let (idLen, out1) := encodeIdentifier out con cls tag
    let (lenLen, tail) := encodeLength (out1.drop idLen) length
    let out2 := out1.take idLen ++ tail
    if idLen = 0 ∨ lenLen = 0 then (0, out2) else (idLen + lenLen, out2)

/-- `encoded_header_length(Construction, Class, Tag, size_t)` and the `Id` overload
(util/EncodeIdentifiers.hpp:281-295). -/
def Id.headerLength (i : Id) (contentLength : Nat) : Nat :=
  encodedTagLength i.tag + encodedLengthLength contentLength

/-- `encoded_length(content_length, Id)` (util/EncodeIdentifiers.hpp:310-314). -/
def Id.encodedLength (i : Id) (contentLength : Nat) : Nat :=
  i.headerLength contentLength + contentLength

/-- `encoded_header_length(content_length, Id / DoubleId)` (util/EncodeIdentifiers.hpp:291-302). -/
def Ident.headerLength : Ident → Nat → Nat
  | .single i, n => i.headerLength n
  | .double o i, n => o.headerLength (i.encodedLength n) + i.headerLength n

/-- `encoded_length(content_length, Id / DoubleId)` (util/EncodeIdentifiers.hpp:310-320). -/
def Ident.encodedLength : Ident → Nat → Nat
  | .single i, n => i.encodedLength n
  | .double o i, n => o.encodedLength (i.encodedLength n)

end FastBer
