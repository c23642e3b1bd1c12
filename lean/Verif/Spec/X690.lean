import Verif.Model.Header
/-!
# Specification of BER elements, after ITU-T X.690 8.1 (definite form)

Independent of the code: only the enumerations `Class` and `Construction` are shared.
-/
namespace FastBer.Spec

/-- Big-endian base-`256` octets of a number, without leading zero octets (`0` has no octets). -/
def base256 (n : Nat) : Bytes :=
  if _h : n = 0 then [] else base256 (n / 256) ++ [UInt8.ofNat (n % 256)]
termination_by n

/-- Value of big-endian octets. -/
def value256 (bs : Bytes) : Nat := bs.foldl (fun acc b => acc * 256 + b.toNat) 0

/-- Big-endian base-128 groups of a number with the continuation bit set on every group
(used for all groups but the last). -/
def base128Cont (n : Nat) : Bytes :=
  if _h : n = 0 then [] else base128Cont (n / 128) ++ [UInt8.ofNat (128 + n % 128)]
termination_by n

/-- X.690 8.1.2.4.2 / 8.19.2: big-endian base-128 groups, continuation bit on all but the last. -/
def base128 (n : Nat) : Bytes := base128Cont (n / 128) ++ [UInt8.ofNat (n % 128)]

/-- X.690 8.1.2: identifier octets. -/
def identifierOctets (c : Class) (k : Construction) (t : Nat) : Bytes :=
  if t ≤ 30 then [UInt8.ofNat (c.toNat * 64 + k.toNat * 32 + t)]
  else UInt8.ofNat (c.toNat * 64 + k.toNat * 32 + 31) :: base128 t

/-- X.690 8.1.3: shortest definite-form length octets. -/
def lengthOctets (n : Nat) : Bytes :=
  if n < 128 then [UInt8.ofNat n]
  else UInt8.ofNat (128 + (base256 n).length) :: base256 n

/-- X.690 8.1.1: an element with the given content octets. -/
def header (c : Class) (k : Construction) (t : Nat) (contentLength : Nat) : Bytes :=
  identifierOctets c k t ++ lengthOctets contentLength

def element (c : Class) (k : Construction) (t : Nat) (content : Bytes) : Bytes :=
  header c k t content.length ++ content

/-- A tag pair is usable when the tag number is a non-negative `int64_t`. -/
def idOk (i : Id) : Prop := 0 ≤ i.tag ∧ i.tag < 2 ^ 63

def identOk : Ident → Prop
  | .single i => idOk i
  | .double o i => idOk o ∧ idOk i

/-- Element with one tag. -/
def elementId (i : Id) (k : Construction) (content : Bytes) : Bytes :=
  element i.cls k i.tag.toNat content

/-- X.690 8.14: content with its tag(s): one element, or for an explicitly tagged type an outer
constructed element around the inner element. -/
def tagged : Ident → Construction → Bytes → Bytes
  | .single i, k, content => elementId i k content
  | .double o i, k, content => elementId o .constructed (elementId i k content)

/-- The octets of `tagged` before the content. -/
def identHeader : Ident → Construction → Nat → Bytes
  | .single i, k, n => header i.cls k i.tag.toNat n
  | .double o i, k, n =>
    header o.cls .constructed o.tag.toNat ((header i.cls k i.tag.toNat n).length + n) ++
      header i.cls k i.tag.toNat n

end FastBer.Spec
