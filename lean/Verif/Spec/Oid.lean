import Verif.Spec.Reader
/-!
# Specification of OBJECT IDENTIFIER contents (X.690 8.19)
-/
namespace FastBer.Spec

/-- A component list the library documents as encodable: at least two components, first 0..2, second
0..39, the others non-negative `int64_t`. -/
def legalOid : List Int → Prop
  | a :: b :: rest => 0 ≤ a ∧ a ≤ 2 ∧ 0 ≤ b ∧ b ≤ 39 ∧ ∀ c ∈ rest, 0 ≤ c ∧ c < 2 ^ 63
  | _ => False

/-- X.690 8.19.2-8.19.4: one octet for the first two components, then base-128 groups. -/
def oidContent : List Int → Bytes
  | a :: b :: rest => UInt8.ofNat (40 * a + b).toNat :: rest.flatMap (fun c => base128 c.toNat)
  | _ => []

/-- Complete subidentifiers in a byte string: maximal runs ending in an octet with the top bit clear.
An unfinished run at the end is dropped. -/
def subidentifiers (cur : Bytes) : Bytes → List Bytes
  | [] => []
  | b :: rest => if 128 ≤ b.toNat then subidentifiers (cur ++ [b]) rest else (cur ++ [b]) :: subidentifiers [] rest

/-- Two's complement reading of a 64-bit word. -/
def wordToInt (n : Nat) : Int := if n % 2 ^ 64 < 2 ^ 63 then (n % 2 ^ 64 : Nat) else ((n % 2 ^ 64 : Nat) : Int) - 2 ^ 64

/-- X.690 8.19.4 inverted: the first subidentifier holds the first two components. -/
def splitFirst (n : Nat) : Int × Int :=
  if n < 40 then (0, n) else if n < 80 then (1, (n : Int) - 40) else (2, (n : Int) - 80)

/-- X.690 8.19: components of a well-formed content. -/
def oidComponents (content : Bytes) : List Int :=
  match subidentifiers [] content with
  | [] => []
  | s :: rest => (splitFirst (value128 s)).1 :: (splitFirst (value128 s)).2 :: rest.map (fun s => (value128 s : Int))

end FastBer.Spec
