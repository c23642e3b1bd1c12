import Verif.Model.Schema
import Verif.Model.Oid
/-!
# The public functions for a generated type
-/
namespace FastBer

/-- `encoded_length(object)` (util/EncodeHelpers.hpp:85-89). -/
def Ty.encodedLength (t : Ty) (o : Obj) : Nat := t.codec.size o

/-- `encode(span, object)` (util/EncodeHelpers.hpp:91-95): result and new content of the span. -/
def Ty.encode (t : Ty) (o : Obj) (buf : Bytes) : Exec (EncodeResult × Bytes) := t.codec.encode o buf

/-- `decode(span, object)` (util/DecodeHelpers.hpp:15-19): success and new object. -/
def Ty.decode (t : Ty) (o : Obj) (input : Bytes) : Exec (Bool × Obj) := do
  let v ← BerView.parse input
  t.codec.decode o v

/-- `lhs == rhs`.  (operators of ber_types/*.hpp; for generated types GenerateHelpers.cpp:37-96) -/
def Ty.equal (t : Ty) (a b : Obj) : Exec Bool := t.codec.eq a b

/-- Default construction.  (constructors in ber_types/*.hpp; the structs TypeAsString.cpp:21-109 writes) -/
def Ty.new (t : Ty) : Exec Obj := t.codec.init

/-- `Default<T, V>::operator=(const T&)` and the converting constructor (Default.hpp:23, 98-110): the new
`m_item`. -/
def Default.assign (t : Ty) (d : Obj) (val : Obj) : Exec Obj := do
  if ← t.codec.eq d val then .ok .none else .ok (.some val)

/-- `Default::get()` (Default.hpp:43). -/
def Default.get (d : Obj) : Obj → Obj
  | .some o => o
  | _ => d

end FastBer
