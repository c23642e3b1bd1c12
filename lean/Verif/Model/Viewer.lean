import Verif.Model.Time
import Verif.Model.Oid
/-!
# Printing a BER element, and the tool that does nothing else

Models `src/util/BerView.cpp` (`operator<<(std::ostream&, BerView)`), `src/view/view.cpp` and the output operators these
use: `ber_types/{Class,Tag,Identifier,Boolean,Integer,Null,ObjectIdentifier,StringImpl,GeneralizedTime}.hpp`.

A stream is the list of octets written to it; writing never fails and the stream has its default formatting (decimal, no digit
grouping).  The depth of the call stack is not limited.
-/
namespace FastBer.Viewer
open FastBer

/-- The octets of a string literal.  (src/util/BerView.cpp:6 and the operators it uses have such literals) -/
def lit (s : String) : Bytes := s.toList.map fun c => UInt8.ofNat c.toNat

/-- What comes from outside the repository: `std::isprint` of a `char` outside 0..127 (undefined in ISO C, `false` in glibc with
the "C" locale), and `absl::ParseTime` followed by `absl::operator<<(std::ostream&, absl::Time)` (`none`: the text is not
accepted).  (`isprint` is called in StringImpl.hpp:158) -/
structure Host where
  high : UInt8 → Exec Bool
  time : Bytes → Option Bytes

/-- `os << n` for a `size_t`.  (Not code of the repository: `std::ostream`, used by src/util/BerView.cpp and Integer.hpp:195.) -/
def showNat (n : Nat) : Bytes := Time.decDigits n

/-- `os << n` for an `int64_t`.  (Not code of the repository: `std::ostream`, used by src/util/BerView.cpp and Integer.hpp:195.) -/
def showInt (n : Int) : Bytes := if n < 0 then 0x2D :: showNat n.natAbs else showNat n.natAbs

/-- `operator<<(std::ostream&, const Class&)` (Class.hpp:27-42). -/
def showClass : Class → Bytes
  | .universal => lit "Universal"
  | .application => lit "Application"
  | .contextSpecific => lit "Context Specific"
  | .private_ => lit "Private"

/-- `operator<<(std::ostream&, const UniversalTag&)` (Tag.hpp:55-122). -/
def showTag (t : Int) : Bytes :=
  if t = 0 then lit "Reserved"
  else if t = 1 then lit "Boolean"
  else if t = 2 then lit "Integer"
  else if t = 3 then lit "Bit String"
  else if t = 4 then lit "Octet String"
  else if t = 5 then lit "Null"
  else if t = 6 then lit "Object Identifier"
  else if t = 7 then lit "Object Descriptor"
  else if t = 8 then lit "Instance Of / External"
  else if t = 9 then lit "Real"
  else if t = 10 then lit "Enumerated"
  else if t = 11 then lit "Embedded PDV"
  else if t = 12 then lit "UTF8 String"
  else if t = 13 then lit "Relative OID"
  else if t = 16 then lit "Sequence / Sequence Of"
  else if t = 17 then lit "Set / Set Of"
  else if t = 18 then lit "Numeric String"
  else if t = 19 then lit "Printable String"
  else if t = 20 then lit "Teletex String / T161 String"
  else if t = 21 then lit "Videotex String"
  else if t = 22 then lit "IA5 String"
  else if t = 23 then lit "UTC Time"
  else if t = 24 then lit "Generalized Time"
  else if t = 25 then lit "Graphic String"
  else if t = 26 then lit "Visible String / ISO646 String"
  else if t = 27 then lit "General String"
  else if t = 28 then lit "Universal String"
  else if t = 29 then lit "Character String"
  else if t = 30 then lit "BMP String"
  else lit "Unknown Universal Tag"

/-- `operator<<(std::ostream&, const RuntimeId&)` (Identifier.hpp:150-158). -/
def showId (i : Id) : Bytes :=
  if i.cls = .universal then lit "{ \"class\": \"" ++ showClass i.cls ++ lit "\", \"tag\": \"" ++ showTag i.tag ++ lit "\" }"
  else lit "{ \"class\": \"" ++ showClass i.cls ++ lit "\", \"tag\": " ++ showInt i.tag ++ lit " }"

/-- `std::all_of(begin, end, [](char c) { return std::isprint(c); })` (StringImpl.hpp:158). -/
def allPrint (h : Host) : Bytes → Exec Bool
  | [] => .ok true
  | b :: rest => do
    let p ← if b.toNat < 128 then Exec.ok (decide (0x20 ≤ b.toNat ∧ b.toNat ≤ 0x7E)) else h.high b
    if p then allPrint h rest else .ok false

/-- `operator<<(std::ostream&, const StringImpl&)` (StringImpl.hpp:155-166). -/
def showString (h : Host) (c : Cont) : Exec Bytes := do
  let x ← c.content
  let p ← allPrint h x
  .ok (if p then lit "\"" ++ x ++ lit "\"" else lit "\"binary data\"")

/-- Loop of `operator<<(std::ostream&, const ObjectIdentifier&)` (ObjectIdentifier.hpp:242-249). -/
def showComponents : List Int → Bytes
  | [] => []
  | [c] => showInt c
  | c :: cs => showInt c ++ lit ", " ++ showComponents cs

/-- The identifier `ExplicitId<UniversalTag::…>` every type has by default (e.g. Integer.hpp:27). -/
def plainId (t : Int) : Ident := .single ⟨.universal, t⟩

/-- `os << StringType<>(view)` with `explicit StringImpl(BerView)` (StringImpl.hpp:40), whose result is ignored. -/
def showStringOf (h : Host) (t : Int) (v : BerView) : Exec Bytes := do
  let r ← Cont.decode (plainId t) (Cont.default (plainId t)) v
  showString h r.2

/-- `os << OctetString<>(view.content())` (BerView.cpp:103, 108, 113; StringImpl.hpp:39). -/
def showContent (h : Host) (v : BerView) : Exec Bytes := do
  let x ← v.content
  showString h (Cont.assignContent (plainId 4) (Cont.default (plainId 4)) x)

/-- `os << Boolean<>(view)` (Boolean.hpp:29, 143-151). -/
def showBoolean (v : BerView) : Exec Bytes := do
  let r ← Boolean.decode (plainId 1) (Boolean.default (plainId 1)) v
  .ok (if Boolean.value r.2 then lit "true" else lit "false")

/-- `os << Integer<>(view)` for INTEGER and for ENUMERATED (BerView.cpp:29-30, 47-48; Integer.hpp:33, 194-198).  The object is
made from an empty container.  For ENUMERATED the identifier of the object is that of INTEGER and does not match. -/
def showInteger (v : BerView) : Exec Bytes := do
  let r ← Integer.decode (plainId 2) (Small.init (plainId 2) 8) v
  let n ← Integer.value (plainId 2) r.2
  .ok (showInt n)

/-- `os << Null<>(view)` (Null.hpp:24, 100-104). -/
def showNull (v : BerView) : Exec Bytes := do
  let _ ← Null.decode (plainId 5) (Null.default (plainId 5)) v
  .ok (lit "null")

/-- `os << ObjectIdentifier<>(view)` (ObjectIdentifier.hpp:35, 237-252). -/
def showOid (v : BerView) : Exec Bytes := do
  let r ← Cont.decode (plainId 6) (Cont.default (plainId 6)) v
  let cs ← Oid.value r.2
  .ok (lit "[" ++ showComponents cs ++ lit "]")

/-- `os << GeneralizedTime<>(view)` or `UTCTime<>(view)` (GeneralizedTime.hpp:42, 185-189); the exception of `time()` is caught
(BerView.cpp:106-109). -/
def showTime (h : Host) (t : Int) (v : BerView) : Exec Bytes := do
  let r ← timeDecode (plainId t) (Cont.default (plainId t)) v
  let x ← Time.time h.time r.2
  match x with
  | some s => .ok s
  | none => showContent h v

/-- The `switch` over the universal tags (BerView.cpp:24-104). -/
def showPrimitive (h : Host) (v : BerView) : Exec Bytes := do
  let c ← v.cls
  if c = .universal then
    if v.tag = 1 then showBoolean v
    else if v.tag = 2 then showInteger v
    else if v.tag = 5 then showNull v
    else if v.tag = 6 then showOid v
    else if v.tag = 9 then .ok []
    else if v.tag = 10 then showInteger v
    else if v.tag = 23 ∨ v.tag = 24 then showTime h v.tag v
    else if v.tag = 3 ∨ v.tag = 4 ∨ v.tag = 12 ∨ (18 ≤ v.tag ∧ v.tag ≤ 22) ∨ (25 ≤ v.tag ∧ v.tag ≤ 30) then
      showStringOf h v.tag v
    else showContent h v
  else showContent h v

mutual
/-- `operator<<(std::ostream&, BerView)` (BerView.cpp:6-129).  The comparison of lengths is for the termination of this
definition only: a header has at least two octets. -/
def showView (h : Host) (v : BerView) : Exec Bytes :=
  if v.valid = false then .ok (lit "null")
  else do
    let i ← v.identifier
    let k ← v.construction
    let body ← match k with
      | .primitive => showPrimitive h v
      | .constructed =>
        match v.content with
        | .ub => Exec.ub
        | .loop => .loop
        | .ok c =>
          if _hc : c.length < v.mem.length then do
            let items ← showChildren h c 0 true
            Exec.ok (lit "[" ++ items ++ lit "]")
          else .loop
    .ok (lit "{ \"length\": " ++ showNat v.berLength ++ lit ", \"identifier\": " ++ showId i ++ lit ", \"content\": " ++
      body ++ lit " }")
termination_by 2 * v.mem.length
decreasing_by omega
/-- `for (const BerView& child : view)` (BerView.cpp:118-127), see `iterate`. -/
def showChildren (h : Host) (buf : Bytes) (tag0 : Int) (first : Bool) : Exec Bytes :=
  match BerView.assign buf tag0 with
  | .ub => .ub
  | .loop => .loop
  | .ok v =>
    if v.valid then
      if _h : 0 < v.berLength ∧ 0 < buf.length ∧ v.mem.length = buf.length then do
        let s ← showView h v
        let rest ← showChildren h (buf.drop v.berLength) v.tag false
        .ok ((if first then [] else lit ", ") ++ s ++ rest)
      else .loop
    else .ok []
termination_by 2 * buf.length + 1
decreasing_by
  · omega
  · rw [List.length_drop]; omega
end

/-- `main` of the tool once the file is read (view.cpp:30-34): the text on standard output and the exit code (-1 is 255 for the
shell). -/
def view (h : Host) (file : Bytes) : Exec (Bytes × Int) := do
  let v ← BerView.parse file
  let s ← showView h v
  .ok (s, if v.valid then 0 else -1)

end FastBer.Viewer
