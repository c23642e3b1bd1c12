import Verif.Model.Schema
/-!
# Hand-written decoders: the free functions `decode(BerViewIterator&, T&)`

Users decode a SEQUENCE by hand with `decode(it, member)` for each member.
-/
namespace FastBer

/-- `decode(BerViewIterator&, T&)`: DecodeHelpers.hpp:27-33 and, the same, Integer.hpp:186-192 for plain members;
Optional.hpp:110-123 for `Optional<T>` (whose call `decode(input, *output)` is the plain one); Default.hpp:169-181 for
`Default<T, V>`, which does not increment the iterator. -/
def Field.iterDecode (f : Field) (o : Obj) (it : Iter) : Exec (Bool × Obj × Iter) :=
  match f.kind with
  | .mandatory => do
    let r ← f.codec.decode o it.view
    let it' ← it.next
    .ok (r.1, r.2, it')
  | .optional => do
    let present ← (if it.view.valid then do
        let c ← it.view.cls
        .ok (f.codec.ids.contains ⟨c, it.view.tag⟩)
      else .ok false : Exec Bool)
    if present then
      let o' ← f.codec.init
      let r ← f.codec.decode o' it.view
      let it' ← it.next
      .ok (r.1, .some r.2, it')
    else .ok (true, .none, it)
  | .default _ => do
    let present ← (if it.view.valid then do
        let c ← it.view.cls
        .ok (f.codec.ids.contains ⟨c, it.view.tag⟩)
      else .ok false : Exec Bool)
    if present then
      let r ← f.decode o it.view
      .ok (r.1, r.2, it)
    else .ok (true, .none, it)

/-- A hand-written decoder: one call for each member, stopping at the first failure.  (user code calling DecodeHelpers.hpp:28, Default.hpp:170, Integer.hpp:187, Optional.hpp:111) -/
def iterDecodeAll : List Field → List Obj → Iter → Exec (Bool × List Obj)
  | f :: fs, o :: os, it => do
    let r ← f.iterDecode o it
    if !r.1 then .ok (false, r.2.1 :: os)
    else
      let s ← iterDecodeAll fs os r.2.2
      .ok (s.1, r.2.1 :: s.2)
  | [], [], _ => .ok (true, [])
  | _, _, _ => .ub

end FastBer
