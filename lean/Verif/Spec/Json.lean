import Verif.Spec.RealDecimal
/-!
# JSON texts (RFC 8259, in the arrangement of json.org)

`Document j s`: the octets `s` are a JSON text, and `j` is the value it stands for.  Octets 0x80 and above are allowed inside strings;
that they are UTF-8 is not required.
-/
namespace FastBer.Json.Spec
open FastBer FastBer.Spec

/-- One character of a string: an octet, or `\u` with its four digits. -/
inductive JChar where
  | octet (b : UInt8)
  | unicode (digits : Bytes)
  deriving DecidableEq, Repr

/-- A JSON value.  A number without fraction and exponent is an integer, other numbers are kept as written. -/
inductive Json where
  | null
  | bool (b : Bool)
  | int (n : Int)
  | number (text : Bytes)
  | string (s : List JChar)
  | array (items : List Json)
  | object (members : List (List JChar × Json))

/-- White space. -/
def Ws (s : Bytes) : Prop := ∀ b ∈ s, b = 0x20 ∨ b = 0x09 ∨ b = 0x0A ∨ b = 0x0D

/-- A hexadecimal digit. -/
def Hex (b : UInt8) : Prop :=
  (0x30 ≤ b.toNat ∧ b.toNat ≤ 0x39) ∨ (0x41 ≤ b.toNat ∧ b.toNat ≤ 0x46) ∨ (0x61 ≤ b.toNat ∧ b.toNat ≤ 0x66)

/-- The escape sequences of two characters, and what they stand for. -/
def escapes : List (UInt8 × UInt8) :=
  [(0x22, 0x22), (0x5C, 0x5C), (0x2F, 0x2F), (0x62, 0x08), (0x66, 0x0C), (0x6E, 0x0A), (0x72, 0x0D), (0x74, 0x09)]

/-- The characters between the quotation marks. -/
inductive Chars : List JChar → Bytes → Prop
  | nil : Chars [] []
  | plain {b : UInt8} {cs s} : 0x20 ≤ b.toNat → b ≠ 0x22 → b ≠ 0x5C → Chars cs s → Chars (.octet b :: cs) (b :: s)
  | escape {e b : UInt8} {cs s} : (e, b) ∈ escapes → Chars cs s → Chars (.octet b :: cs) (0x5C :: e :: s)
  | unicode {d : Bytes} {cs s} : d.length = 4 → (∀ b ∈ d, Hex b) → Chars cs s →
      Chars (.unicode d :: cs) (0x5C :: 0x75 :: (d ++ s))

/-- Digits of an integer: no superfluous zeros in front. -/
def IntDigits (d : Bytes) : Prop := Digits d ∧ d ≠ [] ∧ (d.length = 1 ∨ d.head? ≠ some 0x30)

/-- Fraction. -/
inductive Frac : Bytes → Prop
  | none : Frac []
  | some {d} : Digits d → d ≠ [] → Frac (0x2E :: d)

/-- Exponent. -/
inductive Expo : Bytes → Prop
  | none : Expo []
  | some {e : UInt8} {sg d : Bytes} {neg : Bool} : e = 0x65 ∨ e = 0x45 → SignText sg neg → Digits d → d ≠ [] → Expo (e :: (sg ++ d))

mutual
/-- A value, without white space around it. -/
inductive Value : Json → Bytes → Prop
  | null : Value .null [0x6E, 0x75, 0x6C, 0x6C]
  | true : Value (.bool true) [0x74, 0x72, 0x75, 0x65]
  | false : Value (.bool false) [0x66, 0x61, 0x6C, 0x73, 0x65]
  | nat {d} : IntDigits d → Value (.int (decimal d)) d
  | neg {d} : IntDigits d → Value (.int (-(decimal d : Int))) (0x2D :: d)
  | number {sg d f e : Bytes} : sg = [] ∨ sg = [0x2D] → IntDigits d → Frac f → Expo e → f ++ e ≠ [] →
      Value (.number (sg ++ (d ++ (f ++ e)))) (sg ++ (d ++ (f ++ e)))
  | string {cs s} : Chars cs s → Value (.string cs) (0x22 :: (s ++ [0x22]))
  | emptyArray {w} : Ws w → Value (.array []) (0x5B :: (w ++ [0x5D]))
  | array {js s} : Elements js s → Value (.array js) (0x5B :: (s ++ [0x5D]))
  | emptyObject {w} : Ws w → Value (.object []) (0x7B :: (w ++ [0x7D]))
  | object {ms s} : Members ms s → Value (.object ms) (0x7B :: (s ++ [0x7D]))
/-- The elements of an array. -/
inductive Elements : List Json → Bytes → Prop
  | one {j a s b} : Ws a → Value j s → Ws b → Elements [j] (a ++ (s ++ b))
  | more {j a s b js t} : Ws a → Value j s → Ws b → Elements js t → Elements (j :: js) (a ++ (s ++ (b ++ 0x2C :: t)))
/-- The members of an object. -/
inductive Members : List (List JChar × Json) → Bytes → Prop
  | one {k ks j a b c s d} : Ws a → Chars k ks → Ws b → Ws c → Value j s → Ws d →
      Members [(k, j)] (a ++ 0x22 :: (ks ++ 0x22 :: (b ++ 0x3A :: (c ++ (s ++ d)))))
  | more {k ks j a b c s d ms t} : Ws a → Chars k ks → Ws b → Ws c → Value j s → Ws d → Members ms t →
      Members ((k, j) :: ms) (a ++ 0x22 :: (ks ++ 0x22 :: (b ++ 0x3A :: (c ++ (s ++ (d ++ 0x2C :: t))))))
end

/-- A JSON text. -/
def Document (j : Json) (s : Bytes) : Prop := ∃ a t b, Ws a ∧ Value j t ∧ Ws b ∧ s = a ++ (t ++ b)

end FastBer.Json.Spec
