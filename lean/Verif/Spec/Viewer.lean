import Verif.Spec.Json
import Verif.Spec.Int
import Verif.Spec.Oid
/-!
# What the printed form of a BER element says

`Element s x`: the octets `s` are an element after X.690 8.1 (definite form; lengths and high tag numbers need not be the shortest),
and `x` is its tree.  `describe x` is the JSON value that tells what the tree is.
-/
namespace FastBer.Viewer.Spec
open FastBer FastBer.Spec FastBer.Json.Spec

/-- An element, its number of octets, and what is in it. -/
inductive Tlv where
  | primitive (c : Class) (tag : Nat) (size : Nat) (content : Bytes)
  | constructed (c : Class) (tag : Nat) (size : Nat) (items : List Tlv)

/-- The class in bits 8 and 7 of the first octet (X.690 8.1.2.2). -/
def classOf (b : UInt8) : Class :=
  if b.toNat < 64 then .universal else if b.toNat < 128 then .application else if b.toNat < 192 then .contextSpecific else .private_

/-- Bit 6 of the first octet (X.690 8.1.2.5). -/
def constructionOf (b : UInt8) : Construction := if b.toNat / 32 % 2 = 0 then .primitive else .constructed

/-- Identifier octets (X.690 8.1.2). -/
inductive TagField : Bytes → Class → Construction → Nat → Prop
  | low {b : UInt8} : b.toNat % 32 ≠ 31 → TagField [b] (classOf b) (constructionOf b) (b.toNat % 32)
  | high {b last : UInt8} {mid : Bytes} : b.toNat % 32 = 31 → (∀ m ∈ mid, 128 ≤ m.toNat) → last.toNat < 128 →
      TagField (b :: (mid ++ [last])) (classOf b) (constructionOf b) (value128 (mid ++ [last]))

/-- Length octets (X.690 8.1.3), at most 8 after the first. -/
def LengthField (s : Bytes) (n : Nat) : Prop := readLength s = some (s.length, n)

mutual
/-- The octets of an element. -/
inductive Element : Bytes → Tlv → Prop
  | primitive {t l content c n} : TagField t c .primitive n → LengthField l content.length →
      Element (t ++ (l ++ content)) (.primitive c n (t.length + l.length + content.length) content)
  | constructed {t l content c n items} : TagField t c .constructed n → LengthField l content.length → Elements content items →
      Element (t ++ (l ++ content)) (.constructed c n (t.length + l.length + content.length) items)
/-- One element after the other. -/
inductive Elements : Bytes → List Tlv → Prop
  | nil : Elements [] []
  | cons {s x rest xs} : Element s x → Elements rest xs → Elements (s ++ rest) (x :: xs)
end

/-- A character string. -/
def str (s : Bytes) : Json := .string (s.map .octet)

/-- A string literal. -/
def word (s : String) : Json := str (s.toList.map fun c => UInt8.ofNat c.toNat)

/-- A member of an object. -/
def member (k : String) (j : Json) : List JChar × Json := (k.toList.map fun c => .octet (UInt8.ofNat c.toNat), j)

/-- Printable ASCII. -/
def Printable (s : Bytes) : Prop := ∀ b ∈ s, 0x20 ≤ b.toNat ∧ b.toNat ≤ 0x7E

instance (s : Bytes) : Decidable (Printable s) := by unfold Printable; infer_instance

/-- The names of the universal tags. -/
def universalNames : List (Nat × String) :=
  [(0, "Reserved"), (1, "Boolean"), (2, "Integer"), (3, "Bit String"), (4, "Octet String"), (5, "Null"), (6, "Object Identifier"),
   (7, "Object Descriptor"), (8, "Instance Of / External"), (9, "Real"), (10, "Enumerated"), (11, "Embedded PDV"), (12, "UTF8 String"),
   (13, "Relative OID"), (16, "Sequence / Sequence Of"), (17, "Set / Set Of"), (18, "Numeric String"), (19, "Printable String"),
   (20, "Teletex String / T161 String"), (21, "Videotex String"), (22, "IA5 String"), (23, "UTC Time"), (24, "Generalized Time"),
   (25, "Graphic String"), (26, "Visible String / ISO646 String"), (27, "General String"), (28, "Universal String"),
   (29, "Character String"), (30, "BMP String")]

/-- The names of the classes. -/
def className : Class → String
  | .universal => "Universal"
  | .application => "Application"
  | .contextSpecific => "Context Specific"
  | .private_ => "Private"

/-- Class and tag. -/
def describeTag (c : Class) (tag : Nat) : Json :=
  .object [member "class" (word (className c)),
    member "tag" (if c = .universal then word ((universalNames.lookup tag).getD "Unknown Universal Tag") else .int tag)]

/-- Text, if it can be printed. -/
def describeText (content : Bytes) : Json := if Printable content then str content else word "binary data"

/-- The value of a primitive element: BOOLEAN, INTEGER, NULL, OBJECT IDENTIFIER and ENUMERATED are shown as such, everything else as
text. -/
def describeContent (c : Class) (tag : Nat) (content : Bytes) : Json :=
  if c = .universal then
    match tag with
    | 1 => .bool (content ≠ [0])
    | 2 => .int (twosComplement content)
    | 5 => .null
    | 6 => .array ((oidComponents content).map .int)
    | 10 => .int (twosComplement content)
    | _ => describeText content
  else describeText content

mutual
/-- The whole description. -/
def describe : Tlv → Json
  | .primitive c tag size content =>
    .object [member "length" (.int size), member "identifier" (describeTag c tag), member "content" (describeContent c tag content)]
  | .constructed c tag size items =>
    .object [member "length" (.int size), member "identifier" (describeTag c tag), member "content" (.array (describeAll items))]
/-- `describe` for each of them. -/
def describeAll : List Tlv → List Json
  | [] => []
  | x :: xs => describe x :: describeAll xs
end

/-- No quotation mark and no backslash, if it is printed at all. -/
def PlainText (content : Bytes) : Prop := Printable content → ∀ b ∈ content, b ≠ 0x22 ∧ b ≠ 0x5C

/-- The primitive elements the code describes: the content is a value of the type the tag says, not a REAL, an ENUMERATED (except 0)
or a time; text without quotation marks and backslashes; see the theorems `C89_violated_…` for the others. -/
def Showable (c : Class) (tag : Nat) (content : Bytes) : Prop :=
  if c = .universal then
    match tag with
    | 1 => content.length = 1
    | 2 => 1 ≤ content.length ∧ content.length ≤ 8
    | 5 => True
    | 6 => (∃ b rest, content = b :: rest ∧ b.toNat < 120) ∧ ∀ s ∈ subidentifiers [] content, value128 s < 2 ^ 63
    | 9 => False
    | 10 => twosComplement content = 0
    | 23 => False
    | 24 => False
    | _ => PlainText content
  else PlainText content

mutual
/-- Every primitive element in it is `Showable`, and tags are below 2^63. -/
def AllShowable : Tlv → Prop
  | .primitive c tag _ content => tag < 2 ^ 63 ∧ Showable c tag content
  | .constructed _ tag _ items => tag < 2 ^ 63 ∧ AllShowableIn items
def AllShowableIn : List Tlv → Prop
  | [] => True
  | x :: xs => AllShowable x ∧ AllShowableIn xs
end

end FastBer.Viewer.Spec
