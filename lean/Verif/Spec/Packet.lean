import Verif.Model.Packet
import Verif.Spec.X690
/-! # What a user sees of a `BerContainer` -/
namespace FastBer.Spec

/-- The accessors of the container: valid, class, construction, tag, content, and the octets of the whole packet; `encode` writes the
latter to a buffer that is large enough and leaves other buffers alone. -/
structure Shows (p : Packet) (c : Class) (k : Construction) (t : Int) (x octets : Bytes) : Prop where
  valid : p.isValid = true
  cls : p.view.cls = .ok c
  construction : p.view.construction = .ok k
  tag : p.view.tag = t
  content : p.view.content = .ok x
  contentLength : p.view.len = x.length
  ber : p.view.ber = .ok octets
  berLength : p.view.berLength = octets.length
  encode : ∀ buf, p.encode buf =
    .ok (if octets.length ≤ buf.length then (⟨true, octets.length⟩, octets ++ buf.drop octets.length) else (⟨false, 0⟩, buf))

/-- A container that holds the X.690 encoding of an element. -/
def ShowsElement (p : Packet) (c : Class) (k : Construction) (t : Nat) (x : Bytes) : Prop := Shows p c k t x (element c k t x)

end FastBer.Spec
