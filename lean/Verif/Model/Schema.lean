import Verif.Model.Container
/-!
# Generated codecs: what the compiler emits for SEQUENCE, SET, CHOICE, and the library templates
SEQUENCE OF / SET OF, OPTIONAL and DEFAULT

A C++ type with `encode`/`decode`/`encoded_length`/`operator==` is modelled by a `Codec` acting on
objects (`Obj`).  `Ty` is the syntax tree of the generated C++ type; `Ty.codec` is the code the
compiler emits for it (src/compiler/EncodeDecode.cpp, TypeAsString.cpp, GenerateHelpers.cpp) or the
template it instantiates (SequenceOf.hpp, Optional.hpp, Default.hpp and the primitive types).

Simplifications: types are finite trees (recursive ASN.1 types: Model/Recursive); sums of
`encoded_length`s are not reduced mod 2^64 (all theorems assume the total is below 2^64); objects
live in distinct memory and allocation never fails.
-/
namespace FastBer

/-- A C++ object.  `raw`: the byte array of Integer/Enumerated/Boolean/Null/Real; `cont`: a
`FixedIdBerContainer` (strings, OBJECT IDENTIFIER, times); `list`: SequenceOf; `struct`: the members
of a SEQUENCE/SET struct; `none`/`some`: Optional, and `Default::m_item`; `alt`: a variant.  (members of Integer.hpp:27-72, Boolean.hpp:22-56, Null.hpp:17-60, Real.hpp:33-70, StringImpl.hpp, SequenceOf.hpp, Optional.hpp, Default.hpp, DynamicVariant.hpp) -/
inductive Obj where
  | raw (d : Bytes)
  | cont (c : Cont)
  | list (os : List Obj)
  | struct (fs : List Obj)
  | none
  | some (o : Obj)
  | alt (i : Nat) (o : Obj)

/-- The operations of a generated or library type `T`.  (the functions EncodeDecode.cpp:27-520 writes and the members of ber_types/*.hpp) -/
structure Codec where
  /-- identifiers accepted by `Identifier<T>::check_id_match` (Identifier.hpp:40, 55; Choice.hpp:21-32) -/
  ids : List Id
  /-- `T()` -/
  init : Exec Obj
  /-- `encoded_length()` -/
  size : Obj → Nat
  /-- `encode(span)` -/
  encode : Obj → Bytes → Exec (EncodeResult × Bytes)
  /-- `decode(BerView)` -/
  decode : Obj → BerView → Exec (Bool × Obj)
  /-- `operator==` -/
  eq : Obj → Obj → Exec Bool

/-! ## Leaves -/

/-- Leaf types.  The comparisons of `real` (Real.hpp:596-624, `realCmp` in Model/RealEq) and `time` (`absl::ParseTime`,
GeneralizedTime.hpp:58-62, 123-154, not modelled) are arbitrary functions of the two contents, over which the theorems quantify. -/
inductive Leaf where
  | int
  | enum
  | bool
  | null
  | str
  | oid
  | real (cmp : Bytes → Bytes → Exec Bool)
  | time (cmp : Bytes → Bytes → Exec Bool)

/-- A member function of a type that holds a byte array (Integer.hpp, Boolean.hpp, Null.hpp, Enumerated.hpp, Real.hpp). -/
def onRaw (f : Bytes → Exec (Bool × Bytes)) : Obj → Exec (Bool × Obj)
  | .raw d => do
    let r ← f d
    .ok (r.1, .raw r.2)
  | _ => .ub

/-- A member function of a type that holds a `FixedIdBerContainer` (StringImpl.hpp, ObjectIdentifier.hpp, GeneralizedTime.hpp). -/
def onCont (f : Cont → Exec (Bool × Cont)) : Obj → Exec (Bool × Obj)
  | .cont c => do
    let r ← f c
    .ok (r.1, .cont r.2)
  | _ => .ub

/-- `Integer` (Integer.hpp:30, 43-46, 64-66). -/
def intCodec (id : Ident) : Codec where
  ids := [id.outer]
  init := do
    let d ← Integer.default id
    .ok (.raw d)
  size := fun | .raw d => Integer.encodedLength id d | _ => 0
  encode := fun | .raw d, buf => Integer.encode id d buf | _, _ => .ub
  decode := fun o v => onRaw (fun d => Integer.decode id d v) o
  eq := fun
    | .raw a, .raw b => do
      let x ← Integer.value id a
      let y ← Integer.value id b
      .ok (x == y)
    | _, _ => .ub

/-- `Enumerated` over an `enum class` without a base, i.e. `int` (Enumerated.hpp:16, 27, 38-41, 62-64;
TypeAsString.cpp:399). -/
def enumCodec (id : Ident) : Codec where
  ids := [id.outer]
  init := do
    let d ← Enumerated.default id
    .ok (.raw d)
  size := fun | .raw d => Enumerated.encodedLength id d | _ => 0
  encode := fun | .raw d, buf => Enumerated.encode id d buf | _, _ => .ub
  decode := fun o v => onRaw (fun d => Enumerated.decode id d v) o
  eq := fun
    | .raw a, .raw b => do
      let x ← Enumerated.value id 32 a
      let y ← Enumerated.value id 32 b
      .ok (x == y)
    | _, _ => .ub

/-- `Boolean` (Boolean.hpp:25, 92-135). -/
def boolCodec (id : Ident) : Codec where
  ids := [id.outer]
  init := .ok (.raw (Boolean.default id))
  size := fun _ => Boolean.encodedLength id
  encode := fun | .raw d, buf => .ok (Boolean.encode d buf) | _, _ => .ub
  decode := fun o v => onRaw (fun d => Boolean.decode id d v) o
  eq := fun
    | .raw a, .raw b => .ok (Boolean.value a == Boolean.value b)
    | _, _ => .ub

/-- `Null` (Null.hpp:20, 40-44, 63-98). -/
def nullCodec (id : Ident) : Codec where
  ids := [id.outer]
  init := .ok (.raw (Null.default id))
  size := fun _ => Null.encodedLength id
  encode := fun | .raw d, buf => .ok (Null.encode d buf) | _, _ => .ub
  decode := fun o v => onRaw (fun d => Null.decode id d v) o
  eq := fun _ _ => .ok true

/-- `OctetString` and every other `StringImpl` (StringImpl.hpp:49-59, 87-89, 137-141), and
`ObjectIdentifier`, which has the same members and compares contents too
(ObjectIdentifier.hpp:224-228, 284-303). -/
def strCodec (id : Ident) : Codec where
  ids := [id.outer]
  init := .ok (.cont (Cont.default id))
  size := fun | .cont c => c.encodedLength | _ => 0
  encode := fun | .cont c, buf => .ok (c.encode buf) | _, _ => .ub
  decode := fun o v => onCont (fun c => Cont.decode id c v) o
  eq := fun
    | .cont a, .cont b => a.eq b
    | _, _ => .ub

/-- `Real`: a `SmallFixedIdBerContainer<Identifier, 100>`, default constructed with empty content
(Real.hpp:22, 35, 66, 626-641).  The comparison is a parameter. -/
def realCodec (cmp : Bytes → Bytes → Exec Bool) (id : Ident) : Codec where
  ids := [id.outer]
  init := .ok (.raw (Small.init id 100))
  size := fun | .raw d => Small.berLength id d | _ => 0
  encode := fun | .raw d, buf => Small.encode id d buf | _, _ => .ub
  decode := fun o v => onRaw (fun d => Small.decode id 100 d v) o
  eq := fun
    | .raw a, .raw b => do
      let x ← Small.content id a
      let y ← Small.content id b
      cmp x y
    | _, _ => .ub

/-- "19700101000000Z": what `set_time(absl::Time())` formats (GeneralizedTime.hpp:16, 38, 70-77). -/
def epochContent : Bytes :=
  [0x31, 0x39, 0x37, 0x30, 0x30, 0x31, 0x30, 0x31, 0x30, 0x30, 0x30, 0x30, 0x30, 0x30, 0x5A]

/-- `GeneralizedTime::decode` (GeneralizedTime.hpp:174-183): the container is changed before the
length is checked. -/
def timeDecode (id : Ident) (c : Cont) (v : BerView) : Exec (Bool × Cont) := do
  let r ← Cont.decode id c v
  if r.2.len < 10 ∨ r.2.len > 23 then .ok (false, r.2) else .ok r

/-- `GeneralizedTime` and its aliases UTCTime, Date, Time, … (GeneralizedTime.hpp:38, 58-62, 162-183). -/
def timeCodec (cmp : Bytes → Bytes → Exec Bool) (id : Ident) : Codec where
  ids := [id.outer]
  init := .ok (.cont (Cont.assignContent id (Cont.default id) epochContent))
  size := fun | .cont c => c.encodedLength | _ => 0
  encode := fun | .cont c, buf => .ok (c.encode buf) | _, _ => .ub
  decode := fun o v => onCont (fun c => timeDecode id c v) o
  eq := fun
    | .cont a, .cont b => do
      let x ← a.content
      let y ← b.content
      cmp x y
    | _, _ => .ub

/-- The library type (ber_types/*.hpp; lines at each codec above). -/
def Leaf.codec : Leaf → Ident → Codec
  | .int => intCodec
  | .enum => enumCodec
  | .bool => boolCodec
  | .null => nullCodec
  | .str => strCodec
  | .oid => strCodec
  | .real cmp => realCodec cmp
  | .time cmp => timeCodec cmp

/-! ## Sequential encoding and wrapping, shared by all constructed types -/

/-- Encode objects one after the other into a span, removing what was written each time
(EncodeDecode.cpp:51-63, SequenceOf.hpp:108-117).  A failing member's result is returned as is. -/
def encodeAll : List (Bytes → Exec (EncodeResult × Bytes)) → Bytes → Exec (EncodeResult × Bytes)
  | [], buf => .ok (⟨true, 0⟩, buf)
  | e :: es, buf => do
    let r ← e buf
    if !r.1.success then .ok (r.1, r.2)
    else if r.2.length < r.1.length then .ub
    else
      let s ← encodeAll es (r.2.drop r.1.length)
      if !s.1.success then .ok (s.1, r.2.take r.1.length ++ s.2)
      else .ok (⟨true, r.1.length + s.1.length⟩, r.2.take r.1.length ++ s.2)

/-- Leave room for the shortest possible header, encode the content behind it, then write the header
and move the content if it turned out longer (EncodeDecode.cpp:34-64, 94-142; SequenceOf.hpp:96-120). -/
def encodeWrapped (id : Ident) (content : Bytes → Exec (EncodeResult × Bytes)) (buf : Bytes) :
    Exec (EncodeResult × Bytes) := do
  let guess := id.encodedLength 0
  if buf.length < guess then .ok (.fail, buf)
  else
    let r ← content (buf.drop guess)
    let buf' := buf.take guess ++ r.2
    if !r.1.success then .ok (r.1, buf')
    else wrapWithBerHeader buf' r.1.length id guess .constructed

/-- `(Identifier_::depth() == 1) ? input.begin() : input.begin()->begin()`
(EncodeDecode.cpp:208-209, 455-456). -/
def childIter (v : BerView) : Ident → Exec Iter
  | .single _ => v.begin
  | .double _ _ => do
    let it ← v.begin
    it.view.begin

/-! ## SEQUENCE OF / SET OF -/

/-- The loop of `SequenceOf::decode` (SequenceOf.hpp:131-141): decode each child into a fresh element.
A child of length 0 that decodes makes the iteration endless. -/
def decodeChildren (init : Exec Obj) (dec : Obj → BerView → Exec (Bool × Obj)) (buf : Bytes) (tag0 : Int) :
    Exec (Bool × List Obj) :=
  match BerView.assign buf tag0 with
  | .ub => .ub
  | .loop => .loop
  | .ok v =>
    if v.valid then do
      let o ← init
      let r ← dec o v
      if !r.1 then .ok (false, [r.2])
      else if _h : 0 < v.berLength ∧ 0 < buf.length then do
        let rest ← decodeChildren init dec (buf.drop v.berLength) v.tag
        .ok (rest.1, r.2 :: rest.2)
      else .loop
    else .ok (true, [])
termination_by buf.length
decreasing_by simp; omega

/-- `SequenceOf::operator==` (SequenceOf.hpp:76-80): same size and element-wise equal; `std::equal`
stops at the first difference. -/
def eqList (eq : Obj → Obj → Exec Bool) : List Obj → List Obj → Exec Bool
  | [], [] => .ok true
  | a :: as, b :: bs => do
    if !(← eq a b) then .ok false else eqList eq as bs
  | _, _ => .ok false

/-- `SequenceOf<T, id>` (SequenceOf.hpp:36-142; `SetOf` is an alias, SetOf.hpp:10). -/
def seqOfCodec (id : Ident) (c : Codec) : Codec where
  ids := [id.outer]
  init := .ok (.list [])
  size := fun
    | .list os => id.encodedLength (os.map c.size).sum
    | _ => 0
  encode := fun
    | .list os, buf => do
      let r ← encodeWrapped id (encodeAll (os.map c.encode)) buf
      .ok (if r.1.success then r else (.fail, r.2))
    | _, _ => .ub
  decode := fun
    | .list _, v => do
      if !(← hasCorrectHeader v id .constructed) then .ok (false, .list [])
      else
        let range ← innerView v id
        let content ← range.content
        let r ← decodeChildren c.init c.decode content 0
        .ok (r.1, .list r.2)
    | _, _ => .ub
  eq := fun
    | .list as, .list bs => if as.length = bs.length then eqList c.eq as bs else .ok false
    | _, _ => .ub

/-! ## Members of SEQUENCE and SET: plain, Optional<T>, Default<T, V> -/

/-- How a component is declared: mandatory, OPTIONAL, or DEFAULT with its `m_default` object.  (TypeAsString.cpp:29-60) -/
inductive Kind where
  | mandatory
  | optional
  | default (d : Obj)

/-- A component of a generated SEQUENCE/SET: declaration, identifiers the compiler wrote into the
generated decode function (EncodeDecode.cpp:225-251 / 279-305 case labels, 363-368 id checks), type. -/
structure Field where
  kind : Kind
  labels : List Id
  codec : Codec

namespace Field

/-- Default construction of the member: `T()`, empty Optional, Default with `m_item` empty.  (Optional.hpp, Default.hpp; the struct TypeAsString.cpp:21-109 writes) -/
def init (f : Field) : Exec Obj :=
  match f.kind with
  | .mandatory => f.codec.init
  | _ => .ok .none

/-- `T::encoded_length`, `Optional::encoded_length` (Optional.hpp:84-95, 144-156),
`Default::encoded_length` (Default.hpp:124-135). -/
def size (f : Field) (o : Obj) : Nat :=
  match f.kind, o with
  | .mandatory, o => f.codec.size o
  | _, .some o => f.codec.size o
  | _, _ => 0

/-- `T::encode`, `Optional::encode` (Optional.hpp:97-108, 158-170), `Default::encode` (Default.hpp:137-148). -/
def encode (f : Field) (o : Obj) (buf : Bytes) : Exec (EncodeResult × Bytes) :=
  match f.kind, o with
  | .mandatory, o => f.codec.encode o buf
  | _, .some o => f.codec.encode o buf
  | _, .none => .ok (⟨true, 0⟩, buf)
  | _, _ => .ub

/-- `T::decode`, `Optional::decode` (Optional.hpp:125-142, 172-190), `Default::decode` (Default.hpp:150-167). -/
def decode (f : Field) (o : Obj) (v : BerView) : Exec (Bool × Obj) :=
  match f.kind with
  | .mandatory => f.codec.decode o v
  | _ => do
    if v.valid then
      let c ← v.cls
      if f.codec.ids.contains ⟨c, v.tag⟩ then
        let o' ← f.codec.init
        let r ← f.codec.decode o' v
        .ok (r.1, .some r.2)
      else .ok (false, o)
    else .ok (true, .none)

/-- `operator==` of members: `T`'s, `absl::optional`'s / `DynamicOptional`'s, and Default's, which
compares `get()` (Default.hpp:43, 201-205). -/
def eq (f : Field) (a b : Obj) : Exec Bool :=
  match f.kind with
  | .mandatory => f.codec.eq a b
  | .optional =>
    match a, b with
    | .none, .none => .ok true
    | .some a, .some b => f.codec.eq a b
    | _, _ => .ok false
  | .default d =>
    let get : Obj → Obj := fun | .some o => o | _ => d
    f.codec.eq (get a) (get b)

/-- Neither OPTIONAL nor DEFAULT (EncodeDecode.cpp:225-251, 363-368 ask this). -/
def isMandatory (f : Field) : Bool :=
  match f.kind with
  | .mandatory => true
  | _ => false

end Field

/-- Default construction of a struct: every member in order.  (Optional.hpp, Default.hpp; the struct TypeAsString.cpp:21-109 writes) -/
def initFields : List Field → Exec (List Obj)
  | [] => .ok []
  | f :: fs => do
    let o ← f.init
    let os ← initFields fs
    .ok (o :: os)

/-- Generated `operator==` (GenerateHelpers.cpp:37-57): `true && lhs.a == rhs.a && …`. -/
def eqFields : List Field → List Obj → List Obj → Exec Bool
  | [], [], [] => .ok true
  | f :: fs, a :: as, b :: bs => do
    if !(← f.eq a b) then .ok false else eqFields fs as bs
  | _, _, _ => .ub

/-- The sum of the members' `encoded_length()` (EncodeDecode.cpp:68-82). -/
def sizeFields : List Field → List Obj → Nat
  | f :: fs, o :: os => f.size o + sizeFields fs os
  | _, _ => 0

/-- The members' `encode` calls, in order of declaration (EncodeDecode.cpp:51-63). -/
def encodersOf : List Field → List Obj → List (Bytes → Exec (EncodeResult × Bytes))
  | f :: fs, o :: os => f.encode o :: encodersOf fs os
  | _, _ => []

/-! ## SEQUENCE -/

/-- Body of the generated SEQUENCE decode (EncodeDecode.cpp:359-418).  The members after a failing one
keep their old state.  Elements after the last component are ignored. -/
def decodeSeq : List Field → List Obj → Iter → Exec (Bool × List Obj)
  | f :: fs, o :: os, it => do
    if f.isMandatory then
      let r ← f.decode o it.view
      if !r.1 then .ok (false, r.2 :: os)
      else
        let it' ← it.next
        let s ← decodeSeq fs os it'
        .ok (s.1, r.2 :: s.2)
    else
      let present ← (if it.view.valid then do
          let c ← it.view.cls
          .ok (f.labels.contains ⟨c, it.view.tag⟩)
        else .ok false : Exec Bool)
      if present then
        let r ← f.decode o it.view
        if !r.1 then .ok (false, r.2 :: os)
        else
          let it' ← it.next
          let s ← decodeSeq fs os it'
          .ok (s.1, r.2 :: s.2)
      else
        let s ← decodeSeq fs os it
        .ok (s.1, .none :: s.2)
  | [], [], _ => .ok (true, [])
  | _, _, _ => .ub

/-- Header checks of the generated SEQUENCE/SET decode (EncodeDecode.cpp:187-209): invalid or wrong
header fails (the error message reads the identifier), a type without components then succeeds. -/
def decodeCollection (id : Ident) (fs : List Field) (body : List Obj → Iter → Exec (Bool × List Obj))
    (os : List Obj) (v : BerView) : Exec (Bool × Obj) := do
  if !v.valid then .ok (false, .struct os)
  else if !(← hasCorrectHeader v id .constructed) then
    let _ ← v.identifier
    .ok (false, .struct os)
  else if fs.isEmpty then .ok (true, .struct os)
  else
    let it ← childIter v id
    let r ← body os it
    .ok (r.1, .struct r.2)

/-- Encoding side and equality of a generated SEQUENCE/SET (EncodeDecode.cpp:26-84). -/
def collCodec (id : Ident) (fs : List Field) (body : List Obj → Iter → Exec (Bool × List Obj)) : Codec where
  ids := [id.outer]
  init := do
    let os ← initFields fs
    .ok (.struct os)
  size := fun
    | .struct os => id.encodedLength (sizeFields fs os)
    | _ => 0
  encode := fun
    | .struct os, buf => encodeWrapped id (encodeAll (encodersOf fs os)) buf
    | _, _ => .ub
  decode := fun
    | .struct os, v => decodeCollection id fs body os v
    | _, _ => .ub
  eq := fun
    | .struct as, .struct bs => eqFields fs as bs
    | _, _ => .ub

/-- The functions written for a SEQUENCE (EncodeDecode.cpp:27-84, 182-425). -/
def seqCodec (id : Ident) (fs : List Field) : Codec := collCodec id fs (decodeSeq fs)

/-! ## SET -/

/-- The `switch` statements of the generated SET decode (EncodeDecode.cpp:222-313): the first component
with a case label for this class and tag.  (Duplicate labels do not compile.) -/
def findField (i : Id) : List Field → Option Nat
  | [] => Option.none
  | f :: fs => if f.labels.contains i then Option.some 0 else (findField i fs).map (· + 1)

/-- The `while (iterator != end)` loop (EncodeDecode.cpp:219-326).  `counts` is `decode_counts`. -/
def setLoop (ext : Bool) (fs : List Field) (buf : Bytes) (tag0 : Int) (os : List Obj) (counts : List Nat) :
    Exec (Bool × List Obj × List Nat) :=
  match BerView.assign buf tag0 with
  | .ub => .ub
  | .loop => .loop
  | .ok v =>
    if v.valid then
      match v.identifier with
      | .ub => .ub
      | .loop => .loop
      | .ok i =>
        match findField i fs with
        | Option.some n =>
          match fs[n]?, os[n]? with
          | Option.some f, Option.some o =>
            match f.decode o v with
            | .ub => .ub
            | .loop => .loop
            | .ok (s, o') =>
              if !s then .ok (false, os.set n o', counts)
              else if _h : 0 < v.berLength ∧ 0 < buf.length then
                setLoop ext fs (buf.drop v.berLength) v.tag (os.set n o') (counts.modify n (· + 1))
              else .loop
          | _, _ => .ub
        | Option.none =>
          if !ext then .ok (false, os, counts)
          else if _h : 0 < v.berLength ∧ 0 < buf.length then
            setLoop ext fs (buf.drop v.berLength) v.tag os counts
          else .loop
    else .ok (true, os, counts)
termination_by buf.length
decreasing_by all_goals (simp; omega)

/-- The checks after the loop (EncodeDecode.cpp:327-355), component by component. -/
def setFinish : List Field → List Obj → List Nat → Exec (Bool × List Obj)
  | f :: fs, o :: os, n :: ns => do
    if n = 0 ∧ f.isMandatory then .ok (false, o :: os)
    else if 1 < n then .ok (false, o :: os)
    else
      let o' := if n = 0 then .none else o
      let r ← setFinish fs os ns
      .ok (r.1, o' :: r.2)
  | [], [], [] => .ok (true, [])
  | _, _, _ => .ub

/-- Body of the generated SET decode (EncodeDecode.cpp:211-356). -/
def decodeSet (ext : Bool) (fs : List Field) (os : List Obj) (it : Iter) : Exec (Bool × List Obj) := do
  let r ← setLoop ext fs it.buf 0 os (List.replicate fs.length 0)
  if !r.1 then .ok (false, r.2.1)
  else setFinish fs r.2.1 r.2.2

/-- The functions written for a SET (EncodeDecode.cpp:27-84, 182-425). -/
def setCodec (id : Ident) (ext : Bool) (fs : List Field) : Codec := collCodec id fs (decodeSet ext fs)

/-! ## CHOICE -/

/-- The identifier parameter of a generated CHOICE: a `ChoiceId` listing alternatives, or a tag.  (Identifier.hpp, `ChoiceId`; GenerateChoice.cpp:8-47) -/
inductive ChoiceIdent where
  | untagged (ids : List Id)
  | tagged (id : Ident)

/-- An alternative: case labels written by the compiler (EncodeDecode.cpp:467-512), type. -/
structure Alt where
  labels : List Id
  codec : Codec

/-- First alternative with a case label of class `c` and tag `t`.  (the `switch` of EncodeDecode.cpp:467-512) -/
def findAltIn (c : Class) (t : Int) : List Alt → Option Nat
  | [] => Option.none
  | a :: as => if a.labels.contains ⟨c, t⟩ then Option.some 0 else (findAltIn c t as).map (· + 1)

/-- The chain of `switch (content.tag())` statements, one per class that occurs, in the order
universal, application, context_specific, private (EncodeDecode.cpp:478-512; with automatic tagging
only the context_specific labels exist, 467-477).  The class of the element is not consulted. -/
def findAlt (t : Int) (as : List Alt) : Option Nat :=
  (findAltIn .universal t as).orElse fun _ =>
  (findAltIn .application t as).orElse fun _ =>
  (findAltIn .contextSpecific t as).orElse fun _ =>
  findAltIn .private_ t as

/-- Dispatch (EncodeDecode.cpp:467-515): `emplace<i>().decode(content)`; without a match the error
message reads `content.identifier()`. -/
def decodeAlt (as : List Alt) (o : Obj) (v : BerView) : Exec (Bool × Obj) :=
  match findAlt v.tag as with
  | Option.some i =>
    match as[i]? with
    | Option.some a => do
      let x ← a.codec.init
      let r ← a.codec.decode x v
      .ok (r.1, .alt i r.2)
    | Option.none => .ub
  | Option.none => do
    let _ ← v.identifier
    .ok (false, o)

/-- Generated CHOICE (EncodeDecode.cpp:86-179, 427-520; comparison GenerateChoice.cpp:252-259 and
`absl::variant`/`DynamicVariant`: same index and equal alternative). -/
def choiceCodec (id : ChoiceIdent) (as : List Alt) : Codec where
  ids := match id with
    | .untagged ids => ids
    | .tagged i => [i.outer]
  init :=
    match as with
    | [] => .ub
    | a :: _ => do
      let o ← a.codec.init
      .ok (.alt 0 o)
  size := fun
    | .alt i o =>
      let n := match as[i]? with
        | Option.some a => a.codec.size o
        | Option.none => 0
      match id with
      | .untagged _ => n
      | .tagged id => id.encodedLength n
    | _ => 0
  encode := fun
    | .alt i o, buf =>
      match as[i]? with
      | Option.none => .ub
      | Option.some a =>
        match id with
        | .untagged _ => a.codec.encode o buf
        | .tagged id => encodeWrapped id (a.codec.encode o) buf
    | _, _ => .ub
  decode := fun
    | .alt j o, v =>
      match id with
      | .untagged _ => decodeAlt as (.alt j o) v
      | .tagged id => do
        if !v.valid then .ok (false, .alt j o)
        else if !(← hasCorrectHeader v id .constructed) then
          let _ ← v.identifier
          .ok (false, .alt j o)
        else
          let it ← childIter v id
          if !it.view.valid then .ok (false, .alt j o)
          else decodeAlt as (.alt j o) it.view
    | _, _ => .ub
  eq := fun
    | .alt i a, .alt j b =>
      if i = j then
        match as[i]? with
        | Option.some x => x.codec.eq a b
        | Option.none => .ub
      else .ok false
    | _, _ => .ub

/-! ## Types -/

mutual
/-- Syntax of generated C++ types.  (what TypeAsString.cpp:21-489 and GenerateChoice.cpp:8-47 write) -/
inductive Ty where
  | leaf (k : Leaf) (id : Ident)
  | seqOf (id : Ident) (t : Ty)
  | seq (id : Ident) (fs : Fields)
  | set (id : Ident) (ext : Bool) (fs : Fields)
  | choice (id : ChoiceIdent) (as : Alts)
/-- Components of a SEQUENCE/SET.  (what TypeAsString.cpp:21-489 and GenerateChoice.cpp:8-47 write) -/
inductive Fields where
  | nil
  | cons (kind : Kind) (labels : List Id) (t : Ty) (rest : Fields)
/-- Alternatives of a CHOICE.  (what TypeAsString.cpp:21-489 and GenerateChoice.cpp:8-47 write) -/
inductive Alts where
  | nil
  | cons (labels : List Id) (t : Ty) (rest : Alts)
end

mutual
/-- The code generated for a type.  (EncodeDecode.cpp:27-520 or the library template) -/
def Ty.codec : Ty → Codec
  | .leaf k id => k.codec id
  | .seqOf id t => seqOfCodec id t.codec
  | .seq id fs => seqCodec id fs.fields
  | .set id ext fs => setCodec id ext fs.fields
  | .choice id as => choiceCodec id as.alts
/-- The components with their code (EncodeDecode.cpp:27-84, 182-425). -/
def Fields.fields : Fields → List Field
  | .nil => []
  | .cons kind labels t rest => ⟨kind, labels, t.codec⟩ :: rest.fields
/-- The alternatives with their code (EncodeDecode.cpp:86-180, 427-520). -/
def Alts.alts : Alts → List Alt
  | .nil => []
  | .cons labels t rest => ⟨labels, t.codec⟩ :: rest.alts
end

end FastBer
