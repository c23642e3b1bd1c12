import Verif.Model.Lexer
import Verif.Spec.Names
import Verif.Spec.RealDecimal
/-!
# Lexical items of ASN.1 (X.680 clause 12)

`Item t s`: `s` is a lexical item, and `t` what the parser should get for it.  `Text ts s`: the text `s` consists of the items `ts`,
in this order, with white space and comments between them.
-/
namespace FastBer.Lexer.Spec
open FastBer Names Names.Spec FastBer.Spec

/-- The reserved words of X.680 12.38. -/
def reservedWords : List String :=
  ["ABSENT", "ABSTRACT-SYNTAX", "ALL", "APPLICATION", "AUTOMATIC", "BEGIN", "BIT", "BMPString", "BOOLEAN", "BY", "CHARACTER", "CHOICE",
   "CLASS", "COMPONENT", "COMPONENTS", "CONSTRAINED", "CONTAINING", "DATE", "DATE-TIME", "DEFAULT", "DEFINITIONS", "DURATION", "EMBEDDED",
   "ENCODED", "ENCODING-CONTROL", "END", "ENUMERATED", "EXCEPT", "EXPLICIT", "EXPORTS", "EXTENSIBILITY", "EXTERNAL", "FALSE", "FROM",
   "GeneralizedTime", "GeneralString", "GraphicString", "IA5String", "IDENTIFIER", "IMPLICIT", "IMPLIED", "IMPORTS", "INCLUDES", "INSTANCE",
   "INSTRUCTIONS", "INTEGER", "INTERSECTION", "ISO646String", "MAX", "MIN", "MINUS-INFINITY", "NOT-A-NUMBER", "NULL", "NumericString",
   "OBJECT", "ObjectDescriptor", "OCTET", "OF", "OID-IRI", "OPTIONAL", "PATTERN", "PDV", "PLUS-INFINITY", "PRESENT", "PrintableString",
   "PRIVATE", "REAL", "RELATIVE-OID", "RELATIVE-OID-IRI", "SEQUENCE", "SET", "SETTINGS", "SIZE", "STRING", "SYNTAX", "T61String", "TAGS",
   "TeletexString", "TIME", "TIME-OF-DAY", "TRUE", "TYPE-IDENTIFIER", "UNION", "UNIQUE", "UNIVERSAL", "UniversalString", "UTCTime",
   "UTF8String", "VideotexString", "VisibleString", "WITH"]

/-- Reserved words the compiler spells with an underscore. -/
def misspelt : List String := ["ENCODING-CONTROL", "OID-IRI", "PLUS-INFINITY"]

/-- The symbols (X.680 12.20-12.37) the compiler knows. -/
def itemSymbols : List String :=
  ["::=", "...", "..", "{", "}", "(", ")", "[", "]", ":", ";", ",", "-", ".", "|", "!", "<", "^", "@"]

/-- `p` occurs in `s`. -/
def Occurs (p s : Bytes) : Prop := ∃ a b, s = a ++ p ++ b

/-- A name in the characters of the file. -/
def nameText (n : List Char) : Bytes := n.map fun c => UInt8.ofNat c.toNat

/-- What is between the quotation marks of a cstring: characters other than the quotation mark, or two of these for one.  Without
apostrophes and backslashes, see `C87_violated_apostrophe` and `C87_violated_backslash`. -/
inductive StringBody : Bytes → Prop
  | nil : StringBody []
  | char {c : UInt8} {s : Bytes} : c ≠ 0x22 → c ≠ 0x27 → c ≠ 0x5C → StringBody s → StringBody (c :: s)
  | quote {s : Bytes} : StringBody s → StringBody (0x22 :: 0x22 :: s)

/-- Binary and hexadecimal digits. -/
def Binary (s : Bytes) : Prop := ∀ b ∈ s, b.toNat = 0x30 ∨ b.toNat = 0x31
def Hexadecimal (s : Bytes) : Prop :=
  ∀ b ∈ s, (0x30 ≤ b.toNat ∧ b.toNat ≤ 0x39) ∨ (0x41 ≤ b.toNat ∧ b.toNat ≤ 0x46) ∨ (0x61 ≤ b.toNat ∧ b.toNat ≤ 0x66)

/-- A lexical item and its token. -/
inductive Item : Tok → Bytes → Prop
  | word {k : String} : k ∈ reservedWords → k ∉ misspelt → Item (.sym k) (nameText k.toList)
  | symbol {k : String} : k ∈ itemSymbols → Item (.sym k) (nameText k.toList)
  | typeReference {n : List Char} : AsnName n → (∃ c cs, n = c :: cs ∧ 'A' ≤ c ∧ c ≤ 'Z') → (∀ k ∈ "ANY" :: reservedWords, n ≠ k.toList) →
      Item (.upper (santizeName n)) (nameText n)
  | identifier {n : List Char} : AsnName n → (∃ c cs, n = c :: cs ∧ 'a' ≤ c ∧ c ≤ 'z') → Item (.lower (santizeName n)) (nameText n)
  | typeField {n : List Char} : AsnName n → (∃ c cs, n = c :: cs ∧ 'A' ≤ c ∧ c ≤ 'Z') →
      Item (.typeField (santizeName ('&' :: n))) (nameText ('&' :: n))
  | valueField {n : List Char} : AsnName n → (∃ c cs, n = c :: cs ∧ 'a' ≤ c ∧ c ≤ 'z') →
      Item (.valueField (santizeName ('&' :: n))) (nameText ('&' :: n))
  | number {s : Bytes} : Digits s → s ≠ [] → decimal s < 2 ^ 63 → Item (.number (decimal s)) s
  | negative {s : Bytes} : Digits s → s ≠ [] → decimal s ≤ 2 ^ 63 → Item (.negative (-(decimal s : Int))) (0x2D :: s)
  | real {i f : Bytes} : Digits i → i ≠ [] → Digits f → f ≠ [] → Item (.real (i ++ 0x2E :: f)) (i ++ 0x2E :: f)
  | bstring {s : Bytes} : Binary s → Item (.bstring s) (0x27 :: (s ++ [0x27, 0x42]))
  | hstring {s : Bytes} : Hexadecimal s → Item (.hstring s) (0x27 :: (s ++ [0x27, 0x48]))
  | cstring {s : Bytes} : StringBody s → Item (.cstring (0x22 :: (s ++ [0x22]))) (0x22 :: (s ++ [0x22]))

/-- A character of a name other than the hyphen. -/
def Word (b : UInt8) : Prop :=
  (0x41 ≤ b.toNat ∧ b.toNat ≤ 0x5A) ∨ (0x61 ≤ b.toNat ∧ b.toNat ≤ 0x7A) ∨ b.toNat = 0x5F ∨ (0x30 ≤ b.toNat ∧ b.toNat ≤ 0x39)

def Digit (b : UInt8) : Prop := 0x30 ≤ b.toNat ∧ b.toNat ≤ 0x39

/-- `rest` does not start with a character that meets `p`. -/
def NotNext (p : UInt8 → Prop) (rest : Bytes) : Prop := ∀ b s, rest = b :: s → ¬ p b

/-- A name or reserved word ends here: what follows would not make it longer. -/
def WordEnds (rest : Bytes) : Prop := NotNext Word rest ∧ ∀ s, rest = 0x2D :: s → NotNext Word s

/-- What may follow an item without white space in between. -/
def Ends : Tok → Bytes → Prop
  | .sym k, rest =>
    if k ∈ itemSymbols then
      (k = ":" → ∀ s, rest ≠ 0x3A :: 0x3D :: s) ∧ (k = "." ∨ k = ".." → NotNext (· = 0x2E) rest) ∧
      (k = "-" → NotNext (fun b => b = 0x2D ∨ Digit b) rest)
    else WordEnds rest
  | .upper _, rest => WordEnds rest
  | .lower _, rest => WordEnds rest
  | .typeField _, rest => WordEnds rest
  | .valueField _, rest => WordEnds rest
  | .number _, rest => NotNext Digit rest ∧ ∀ s, rest = 0x2E :: s → NotNext Digit s
  | .negative _, rest => NotNext Digit rest
  | .real _, rest => NotNext Digit rest
  | .cstring _, rest => NotNext (· = 0x22) rest
  | .bstring _, _ => True
  | .hstring _, _ => True

/-- White space and comments (X.680 12.1.6, 12.6). -/
inductive Blank : Bytes → Prop
  /-- tab, line feed, vertical tab, form feed, carriage return, space -/
  | space {b : UInt8} : (9 ≤ b.toNat ∧ b.toNat ≤ 13) ∨ b.toNat = 32 → Blank [b]
  /-- a comment up to the end of the line -/
  | line {s : Bytes} {nl : UInt8} : (∀ b ∈ s, ¬ (10 ≤ b.toNat ∧ b.toNat ≤ 13)) → ¬ Occurs [0x2D, 0x2D] s → nl = 10 ∨ nl = 13 →
      Blank (0x2D :: 0x2D :: (s ++ [nl]))
  /-- a comment up to the next pair of hyphens -/
  | inline {s : Bytes} : (∀ b ∈ s, ¬ (10 ≤ b.toNat ∧ b.toNat ≤ 13)) → ¬ Occurs [0x2D, 0x2D] (s ++ [0x2D]) →
      Blank (0x2D :: 0x2D :: (s ++ [0x2D, 0x2D]))
  /-- a comment between `/*` and `*/`, without comments in it -/
  | block {s : Bytes} : ¬ Occurs [0x2A, 0x2F] s → ¬ Occurs [0x2F, 0x2A] (s ++ [0x2A]) → Blank (0x2F :: 0x2A :: (s ++ [0x2A, 0x2F]))

/-- A text and its items. -/
inductive Text : List Tok → Bytes → Prop
  | nil : Text [] []
  | blank {b s : Bytes} {ts : List Tok} : Blank b → Text ts s → Text ts (b ++ s)
  | item {t : Tok} {x s : Bytes} {ts : List Tok} : Item t x → Ends t s → Text ts s → Text (t :: ts) (x ++ s)

/-- A string without its end, in the view of the lexer: no quotation mark or apostrophe but two quotation marks and those behind a
backslash. -/
inductive OpenString : Bytes → Prop
  | nil : OpenString []
  | escape {d : UInt8} {s : Bytes} : d ≠ 10 → OpenString s → OpenString (0x5C :: d :: s)
  | pair {s : Bytes} : OpenString s → OpenString (0x22 :: 0x22 :: s)
  | char {c : UInt8} {s : Bytes} : c ≠ 0x22 → c ≠ 0x27 → OpenString s → OpenString (c :: s)

/-- The last item of a text, not complete: a comment without an end of line, a comment without its `*/`, a string without its end. -/
inductive Unterminated : Bytes → Prop
  | line {s : Bytes} : (∀ b ∈ s, b ≠ 13 ∧ b ≠ 10) → ¬ Occurs [0x2D, 0x2D] s → Unterminated (0x2D :: 0x2D :: s)
  | block {s : Bytes} : ¬ Occurs [0x2A, 0x2F] s → Unterminated (0x2F :: 0x2A :: s)
  | string {q : UInt8} {s : Bytes} : q = 0x22 ∨ q = 0x27 → OpenString s → Unterminated (q :: s)

end FastBer.Lexer.Spec
