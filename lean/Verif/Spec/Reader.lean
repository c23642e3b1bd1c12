import Verif.Spec.X690
import Verif.Model.View
/-!
# Specification of BER readers on arbitrary bytes

`readLength` is X.690 8.1.3 for definite lengths of at most 8 octets.  `value128` is the value of
base-128 groups.  `Tame` says that no element header inside a byte string has a tag that overflows
`int64_t` or a length that overflows `size_t` arithmetic.
-/
namespace FastBer.Spec

/-- Definite-form length field at the front of `bs`: (octets used, length). -/
def readLength : Bytes → Option (Nat × Nat)
  | [] => none
  | b :: rest =>
    if b.toNat < 128 then some (1, b.toNat)
    else if 1 ≤ b.toNat - 128 ∧ b.toNat - 128 ≤ 8 ∧ b.toNat - 128 ≤ rest.length then
      some (b.toNat - 128 + 1, value256 (rest.take (b.toNat - 128)))
    else none

/-- Value of big-endian base-128 groups (continuation bits ignored). -/
def value128 (bs : Bytes) : Nat := bs.foldl (fun acc b => acc * 128 + b.toNat % 128) 0

/-- No header anywhere inside `bs` overflows `int64_t` (tag) or `size_t` (header + content). -/
def Tame (bs : Bytes) : Prop :=
  ∀ s, s <:+: bs → ∀ tag0, ∃ v, BerView.assign s tag0 = .ok v ∧ v.hdr + v.len < 2 ^ 64

/-- A purely syntactic sufficient condition for `Tame`: no nine consecutive octets with the top bit
set, no octet pair 0x88 0xFF, and less than 2^56 bytes. -/
structure Plain (bs : Bytes) : Prop where
  noLongRun : ∀ r, r <:+: bs → r.length = 9 → ∃ b ∈ r, b.toNat < 128
  noHugeLength : ¬ [0x88, 0xFF] <:+: bs
  size : bs.length < 2 ^ 56

end FastBer.Spec

namespace FastBer.Spec

/-- Iterating over the elements in `bs`, and recursively over the contents of constructed elements,
meets no header whose tag overflows `int64_t` and no element whose announced size overflows
`size_t`.  The content of a primitive element must only not start with an overflowing tag (error
messages of the decoders look at it); bytes behind the first non-element are arbitrary. -/
inductive Sane : Bytes → Prop
  | stop {bs} : (∀ tag0, ∃ v, BerView.assign bs tag0 = .ok v ∧ v.valid = false) → Sane bs
  | elem {bs v} : BerView.assign bs 0 = .ok v → v.valid = true → v.hdr + v.len < 2 ^ 64 →
      (∃ w, BerView.parse ((bs.drop v.hdr).take v.len) = .ok w) →
      (v.construction = .ok .constructed → Sane ((bs.drop v.hdr).take v.len)) →
      Sane (bs.drop (v.hdr + v.len)) → Sane bs

/-- The element `v` (parsed from somewhere) carries identifier `id` and construction `k`; `w` is the
element that holds the content (the inner one for an explicitly tagged type). -/
def Matches (v : BerView) (id : Ident) (k : Construction) (w : BerView) : Prop :=
  match id with
  | .single i => v.valid = true ∧ v.identifier = .ok i ∧ v.construction = .ok k ∧ w = v
  | .double o i => v.valid = true ∧ v.identifier = .ok o ∧ v.construction = .ok .constructed ∧
      ∃ c, v.content = .ok c ∧ BerView.parse c = .ok w ∧ w.valid = true ∧ w.identifier = .ok i ∧
        w.construction = .ok k

end FastBer.Spec
