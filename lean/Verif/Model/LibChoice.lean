import Verif.Model.Api
/-!
# The library's own CHOICE (`Choice<Choices<...>, Identifier>`) and `Any`

`Choice.hpp` contains encode/decode templates of its own, which generated types do not use but `Any` does.
Unlike the generated decoder of a CHOICE (`choiceCodec`), `decode_if` compares class and tag number.

Simplification: a library CHOICE is given by the list of its alternatives' types, which are generated or
library types (`Ty`); the variant never is valueless (no constructor of an alternative throws).
-/
namespace FastBer

/-- `Choice<Choices<alts...>, id>` (Choice.hpp:71-80, 337-466). -/
structure LibChoice where
  id : ChoiceIdent
  alts : List Ty

namespace LibChoice

/-- `Choice()`: the variant's default, i.e. the first alternative (Choice.hpp:354). -/
def init (c : LibChoice) : Exec Obj :=
  match c.alts with
  | [] => .ub
  | t :: _ => do
    let o ← t.codec.init
    .ok (.alt 0 o)

/-- `encoded_length_old` (Choice.hpp:524-556). -/
def encodedLength (c : LibChoice) : Obj → Nat
  | .alt i o =>
    let n := match c.alts[i]? with
      | Option.some t => t.codec.size o
      | Option.none => 0
    match c.id with
    | .untagged _ => n
    | .tagged id => id.encodedLength n
  | _ => 0

/-- `encode_if` from alternative `n` on (Choice.hpp:558-583): the alternative held. -/
def encodeIf : List Ty → Nat → Nat → Obj → Bytes → Exec (EncodeResult × Bytes)
  | [], _, _, _, buf => .ok (.fail, buf)
  | t :: ts, n, i, o, buf => if i = n then t.codec.encode o buf else encodeIf ts (n + 1) i o buf

/-- `encode_old` (Choice.hpp:585-626). -/
def encode (c : LibChoice) : Obj → Bytes → Exec (EncodeResult × Bytes)
  | .alt i o, buf =>
    match c.id with
    | .untagged _ => encodeIf c.alts 0 i o buf
    | .tagged id => encodeWrapped id (encodeIf c.alts 0 i o) buf
  | _, _ => .ub

/-- `check_id_match` of a list of identifiers: one for `Id`/`DoubleId`, several for `ChoiceId`
(Identifier.hpp:38, 50; Choice.hpp:19-32). -/
def matchesId : List Id → Class → Int → Bool
  | [], _, _ => false
  | i :: is, c, t => if Ident.checkIdMatch (.single i) c t then true else matchesId is c t

/-- `decode_if` from alternative `n` on (Choice.hpp:628-650): the first alternative one of whose
identifiers has the class and the tag number of the element is constructed anew and decoded. -/
def decodeIf : List Ty → Nat → Obj → BerView → Exec (Bool × Obj)
  | [], _, o, _ => .ok (false, o)
  | t :: ts, n, o, v => do
    let c ← v.cls
    if matchesId t.codec.ids c v.tag then
      let x ← t.codec.init
      let r ← t.codec.decode x v
      .ok (r.1, .alt n r.2)
    else decodeIf ts (n + 1) o v

/-- `decode_old` (Choice.hpp:652-686). -/
def decodeView (c : LibChoice) (o : Obj) (v : BerView) : Exec (Bool × Obj) :=
  match c.id with
  | .untagged _ =>
    if !v.valid then .ok (false, o)
    else decodeIf c.alts 0 o v
  | .tagged id => do
    if !(← hasCorrectHeader v id .constructed) then .ok (false, o)
    else
      let it ← childIter v id
      if !it.view.valid then .ok (false, o)
      else decodeIf c.alts 0 o it.view

/-- `decode(span, choice)` (util/DecodeHelpers.hpp:15-19). -/
def decode (c : LibChoice) (o : Obj) (input : Bytes) : Exec (Bool × Obj) := do
  let v ← BerView.parse input
  c.decodeView o v

/-- `operator==` of the variant (Choice.hpp:468-474): same index and equal alternatives. -/
def equal (c : LibChoice) : Obj → Obj → Exec Bool
  | .alt i a, .alt j b =>
    if i = j then
      match c.alts[i]? with
      | Option.some t => t.codec.eq a b
      | Option.none => .ub
    else .ok false
  | _, _ => .ub

end LibChoice

/-- A library type with its universal tag.  (the constructors in ber_types/*.hpp; Any.hpp lists them as alternatives) -/
def plainTy (k : Leaf) (tag : Int) : Ty := .leaf k (.single ⟨.universal, tag⟩)

/-- `Any<T>`, whatever `T` is (Any.hpp:10-23; the tags are those of Tag.hpp:11-47 by way of the alternatives' headers:
Date, DateTime and Duration are GeneralizedTime, Time and TimeOfDay are UTCTime).  `r` and `t` are the comparisons of
REALs and times. -/
def anyType (r t : Bytes → Bytes → Exec Bool) : LibChoice where
  alts := [plainTy .str 3, plainTy .bool 1, plainTy .str 29, plainTy (.time t) 24, plainTy (.time t) 24,
    plainTy (.time t) 24, plainTy (.time t) 24, plainTy .int 2, plainTy .null 5, plainTy .oid 6, plainTy .str 4,
    plainTy (.real r) 9, plainTy (.time t) 23, plainTy (.time t) 23, plainTy (.time t) 23, plainTy .str 26]
  id := .untagged ([3, 1, 29, 24, 24, 24, 24, 2, 5, 6, 4, 9, 23, 23, 23, 26].map fun n => ⟨.universal, n⟩)

end FastBer
