import Verif.Model.Container
/-!
# OBJECT IDENTIFIER

Models `ber_types/ObjectIdentifier.hpp`.  Components are `int64_t`.
-/
namespace FastBer

/-- Inner `do … while` of `encoded_object_id_length` (ObjectIdentifier.hpp:73-78): number of octets
counted for one component.  `int64_t` division truncates towards zero. -/
def oidCount (c : Int) : Nat :=
  if c.tdiv 128 > 0 then oidCount (c.tdiv 128) + 1 else 1
termination_by c.toNat
decreasing_by
  rename_i h
  by_cases hc : 0 ≤ c
  · rw [Int.tdiv_eq_ediv_of_nonneg hc] at *; omega
  · have h2 : (-c).tdiv 128 = -(c.tdiv 128) := Int.neg_tdiv ..
    rw [Int.tdiv_eq_ediv_of_nonneg (show 0 ≤ -c by omega)] at h2
    omega

/-- `encoded_object_id_length` (ObjectIdentifier.hpp:63-81). -/
def encodedObjectIdLength (oid : List Int) : Nat :=
  if oid.length < 2 then 0 else 1 + ((oid.drop 2).map oidCount).sum

/-- `pos--` on a `size_t`.  (ObjectIdentifier.hpp:120) -/
def decPos (n : Nat) : Nat := if n = 0 then 2 ^ 64 - 1 else n - 1

/-- Inner `do … while` of `encode_object_id` (ObjectIdentifier.hpp:107-122); `c` is the component,
already known not to be negative.  Returns the buffer and the new write position. -/
def oidWrite (out : Bytes) (pos : Nat) (first : Bool) (c : Nat) : Exec (Bytes × Nat) :=
  if pos < out.length then
    let d := UInt8.ofNat (c % 128)
    let d := if first then d else d ||| 0x80
    let out := out.set pos d
    if c / 128 > 0 then oidWrite out (decPos pos) false (c / 128) else .ok (out, decPos pos)
  else .ub
termination_by c
decreasing_by omega

/-- Loop of `encode_object_id` over the components from the last one down to index 2
(ObjectIdentifier.hpp:98-125).  The list argument is in processing order. -/
def oidLoop (out : Bytes) (pos : Nat) : List Int → Exec (Bool × Bytes)
  | [] => .ok (true, out)
  | c :: cs =>
    if c < 0 then .ok (false, out)
    else do
      let (out, pos) ← oidWrite out pos true c.toNat
      oidLoop out pos cs

/-- `encode_object_id` (ObjectIdentifier.hpp:83-126); `len0` is the `encoded_length` parameter
(default 0).  `40 * input[0] + input[1]` is an `int64_t` expression: overflow is `ub`. -/
def encodeObjectId (out : Bytes) (oid : List Int) (len0 : Nat) : Exec (EncodeResult × Bytes) :=
  let n := if len0 = 0 then encodedObjectIdLength oid else len0
  match oid with
  | a :: b :: rest =>
    if out.length = 0 ∨ out.length < n ∨ a > 2 ∨ b > 39 then .ok (.fail, out)
    else if 40 * a < -2 ^ 63 ∨ 40 * a + b < -2 ^ 63 then .ub
    else do
      let out := out.set 0 (UInt8.ofNat ((40 * a + b) % 256).toNat)
      let (ok, out) ← oidLoop out (decPos n) rest.reverse
      .ok (if ok then ⟨true, n⟩ else .fail, out)
  | _ => .ok (.fail, out)

/-- Conversion of a `size_t` to the `int64_t` elements of the output vector.  (`ObjectIdentifierComponents`, ObjectIdentifier.hpp:13) -/
def toInt64 (n : Nat) : Int := if n < 2 ^ 63 then n else (n : Int) - 2 ^ 64

/-- Loop of `decode_object_id` (ObjectIdentifier.hpp:143-155), `size_t` arithmetic. -/
def decodeOidLoop (cur : Nat) : Bytes → List Int
  | [] => []
  | b :: rest =>
    let cur := u64 (cur + (b &&& 0x7F).toNat)
    if (b &&& 0x80) ≠ 0 then decodeOidLoop (u64 (cur * 0x80)) rest
    else toInt64 cur :: decodeOidLoop 0 rest

/-- `decode_object_id` (ObjectIdentifier.hpp:128-158): success and the output vector, whose previous
contents are discarded in every case. -/
def decodeObjectId (input : Bytes) : Bool × List Int :=
  match input with
  | [] => (false, [])
  | b :: rest => (true, ((b.toNat / 40 : Nat) : Int) :: ((b.toNat % 40 : Nat) : Int) :: decodeOidLoop 0 rest)

/-- Loop of `get_component_number` (ObjectIdentifier.hpp:176-194). Note that `current_num` is cleared
before it is returned. -/
def componentLoop (cur idx want : Nat) : Bytes → Int
  | [] => -1
  | b :: rest =>
    let cur := u64 (cur + (b &&& 0x7F).toNat)
    if (b &&& 0x80) ≠ 0 then componentLoop (u64 (cur * 0x80)) idx want rest
    else
      let cur := 0
      if idx = want then toInt64 cur else componentLoop cur (idx + 1) want rest

/-- `get_component_number` (ObjectIdentifier.hpp:160-195). -/
def getComponentNumber (input : Bytes) (want : Nat) : Exec Int :=
  match input with
  | [] => .ok (-1)
  | b :: rest =>
    if want = 0 then .ok ((b.toNat / 40 : Nat) : Int)
    else if want = 1 then
      match rest with
      | [] => .ub
      | b1 :: _ => .ok ((b1.toNat % 40 : Nat) : Int)
    else .ok (componentLoop 0 2 want rest)

/-- `get_number_of_components` (ObjectIdentifier.hpp:197-214). -/
def getNumberOfComponents (input : Bytes) : Nat :=
  match input with
  | [] => 0
  | _ :: rest => 2 + (rest.filter (fun b => (b &&& 0x80) == 0)).length

namespace Oid

/-- `ObjectIdentifier::assign` (ObjectIdentifier.hpp:274-285): resize, then encode in place. -/
def assign (id : Ident) (c : Cont) (oid : List Int) : Exec (Bool × Cont) := do
  let n := encodedObjectIdLength oid
  let c ← Cont.resizeContent id c n
  let area ← c.content
  let (res, area) ← encodeObjectId area oid n
  .ok (res.success, ⟨writeAt c.data (c.data.length - c.len) area, c.len⟩)

/-- `value()` (ObjectIdentifier.hpp:266-272). -/
def value (c : Cont) : Exec (List Int) := do
  let x ← c.content
  .ok (decodeObjectId x).2

end Oid

end FastBer
