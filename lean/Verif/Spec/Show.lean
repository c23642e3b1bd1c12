import Verif.Model.Show
import Verif.Spec.Viewer
import Verif.Spec.Schema
import Verif.Spec.Supported
/-!
# The JSON value that describes a value of a generated type

`PTy.Describes real p x j`: the JSON value `j` tells what the value `x` of type `p` is: a SEQUENCE or SET is an object whose members have the names
of the components, a SEQUENCE OF an array, an ENUMERATED the name of the enumerator, a missing OPTIONAL component `null`, a missing component
with DEFAULT its default value; a CHOICE is described by the alternative held, without its name.
`real c j`: the number a REAL with contents octets `c` is shown as.
-/
namespace FastBer.Show
open FastBer FastBer.Spec FastBer.Ast FastBer.Json.Spec FastBer.Viewer.Spec

/-- The characters of a name. -/
def nameChars (n : Name) : List JChar := n.toList.map fun c => .octet (UInt8.ofNat c.toNat)

/-- Simple types. -/
def leafDescribes (real : Bytes → Json → Prop) (k : Leaf) (values : List (Int × Name)) (c : Bytes) (j : Json) : Prop :=
  match k with
  | .int => j = .int (twosComplement c)
  | .enum => ∃ n, (twosComplement c, n) ∈ values ∧ j = .string (nameChars n)
  | .bool => j = .bool (c ≠ [0])
  | .null => j = .null
  | .str => j = describeText c
  | .oid => j = .array ((oidComponents c).map .int)
  | .real _ => real c j
  | .time _ => False

mutual
/-- The description of a value. -/
def PTy.Describes (real : Bytes → Json → Prop) : PTy → Val → Json → Prop
  | .leaf k values _ => fun x j => ∃ c, x = .content c ∧ leafDescribes real k values c j
  | .seqOf _ t => fun x j => ∃ xs js, x = .list xs ∧ j = .array js ∧ all2 (t.Describes real) xs js
  | .seq _ fs => fun x j => ∃ xs ms, x = .struct xs ∧ j = .object ms ∧ fs.Describes real xs ms
  | .set _ _ fs => fun x j => ∃ xs ms, x = .struct xs ∧ j = .object ms ∧ fs.Describes real xs ms
  | .choice _ as => fun x j => ∃ i y, x = .alt i y ∧ as.Describes real i y j
/-- Components in order, with their names. -/
def PFields.Describes (real : Bytes → Json → Prop) : PFields → List Val → List (List JChar × Json) → Prop
  | .nil => fun xs ms => xs = [] ∧ ms = []
  | .cons name kind _ t rest => fun xs ms => ∃ x xs' j ms', xs = x :: xs' ∧ ms = (nameChars name, j) :: ms' ∧
      (match kind with
        | .mandatory => t.Describes real x j
        | .optional => (x = .absent ∧ j = .null) ∨ ∃ y, x = .present y ∧ t.Describes real y j
        | .default d => (x = .absent ∧ ∃ y e, t.ty.Rep d y e ∧ t.Describes real y j) ∨ ∃ y, x = .present y ∧ t.Describes real y j) ∧
      rest.Describes real xs' ms'
/-- The alternative held. -/
def PAlts.Describes (real : Bytes → Json → Prop) : PAlts → Nat → Val → Json → Prop
  | .nil => fun _ _ _ => False
  | .cons _ t rest => fun i x j =>
    match i with
    | 0 => t.Describes real x j
    | i + 1 => rest.Describes real i x j
end

/-- Letters, digits and underscores. -/
def NameOk (n : Name) : Prop :=
  ∀ c ∈ n.toList, (48 ≤ c.toNat ∧ c.toNat ≤ 57) ∨ (65 ≤ c.toNat ∧ c.toNat ≤ 90) ∨ c.toNat = 95 ∨ (97 ≤ c.toNat ∧ c.toNat ≤ 122)

/-- The simple values that can be described: text without quotation marks and backslashes, an ENUMERATED with one of its numbers, a REAL the
stream shows as a number, an OBJECT IDENTIFIER with components below 2^63; no times. -/
def leafShowable (real : Bytes → Json → Prop) (k : Leaf) (values : List (Int × Name)) (c : Bytes) : Prop :=
  match k with
  | .int => True
  | .enum => ∃ n, (twosComplement c, n) ∈ values
  | .bool => True
  | .null => True
  | .str => PlainText c
  | .oid => (∃ b rest, c = b :: rest ∧ b.toNat < 120) ∧ ∀ s ∈ subidentifiers [] c, value128 s < 2 ^ 63
  | .real _ => ∃ j, real c j
  | .time _ => False

mutual
/-- Every simple value in it can be described, also in default values that are shown. -/
def PTy.Showable (real : Bytes → Json → Prop) : PTy → Val → Prop
  | .leaf k values _ => fun x => match x with
    | .content c => leafShowable real k values c
    | _ => True
  | .seqOf _ t => fun x => match x with
    | .list xs => ∀ y ∈ xs, t.Showable real y
    | _ => True
  | .seq _ fs => fun x => match x with
    | .struct xs => fs.Showable real xs
    | _ => True
  | .set _ _ fs => fun x => match x with
    | .struct xs => fs.Showable real xs
    | _ => True
  | .choice _ as => fun x => match x with
    | .alt i y => as.Showable real i y
    | _ => True
def PFields.Showable (real : Bytes → Json → Prop) : PFields → List Val → Prop
  | .nil => fun _ => True
  | .cons _ kind _ t rest => fun xs => match xs with
    | x :: xs => (match kind, x with
        | .mandatory, x => t.Showable real x
        | _, .present y => t.Showable real y
        | .default d, .absent => ∃ y e, t.ty.Rep d y e ∧ t.Showable real y
        | _, _ => True) ∧ rest.Showable real xs
    | [] => True
def PAlts.Showable (real : Bytes → Json → Prop) : PAlts → Nat → Val → Prop
  | .nil => fun _ _ => True
  | .cons _ t rest => fun i x => match i with
    | 0 => t.Showable real x
    | i + 1 => rest.Showable real i x
end

mutual
/-- The names are identifiers; names and numbers of an enumeration are different, the numbers of type `int`. -/
def PTy.NamesOk : PTy → Prop
  | .leaf _ values _ => (∀ v ∈ values, NameOk v.2 ∧ -2 ^ 31 ≤ v.1 ∧ v.1 < 2 ^ 31) ∧ (values.map (·.1)).Nodup ∧ (values.map (·.2)).Nodup
  | .seqOf _ t => t.NamesOk
  | .seq _ fs => fs.NamesOk
  | .set _ _ fs => fs.NamesOk
  | .choice _ as => as.NamesOk
def PFields.NamesOk : PFields → Prop
  | .nil => True
  | .cons name _ _ t rest => NameOk name ∧ t.NamesOk ∧ rest.NamesOk
def PAlts.NamesOk : PAlts → Prop
  | .nil => True
  | .cons _ t rest => t.NamesOk ∧ rest.NamesOk
end

mutual
/-- The default values inside the type are values a decoder accepts (`Ty.Valid`). -/
def PTy.DefaultsOk : PTy → Prop
  | .leaf _ _ _ => True
  | .seqOf _ t => t.DefaultsOk
  | .seq _ fs => fs.DefaultsOk
  | .set _ _ fs => fs.DefaultsOk
  | .choice _ as => as.DefaultsOk
def PFields.DefaultsOk : PFields → Prop
  | .nil => True
  | .cons _ kind _ t rest => (match kind with
      | .default d => ∃ y e, t.ty.Rep d y e ∧ t.ty.Valid y
      | _ => True) ∧ t.DefaultsOk ∧ rest.DefaultsOk
def PAlts.DefaultsOk : PAlts → Prop
  | .nil => True
  | .cons _ t rest => t.DefaultsOk ∧ rest.DefaultsOk
end

mutual
/-- Types whose values can be told apart by their descriptions: no CHOICE, no OPTIONAL NULL, no OBJECT IDENTIFIER, REAL or time. -/
def PTy.Telling : PTy → Prop
  | .leaf k _ _ => match k with
    | .oid => False
    | .real _ => False
    | .time _ => False
    | _ => True
  | .seqOf _ t => t.Telling
  | .seq _ fs => fs.Telling
  | .set _ _ fs => fs.Telling
  | .choice _ _ => False
def PFields.Telling : PFields → Prop
  | .nil => True
  | .cons _ kind _ t rest => (match kind, t with
      | .optional, .leaf .null _ _ => False
      | _, _ => True) ∧ t.Telling ∧ rest.Telling
end

mutual
/-- All text in the value is printable. -/
def PTy.TextOk : PTy → Val → Prop
  | .leaf k _ _ => fun x => match k, x with
    | .str, .content c => Printable c
    | _, _ => True
  | .seqOf _ t => fun x => match x with
    | .list xs => ∀ y ∈ xs, t.TextOk y
    | _ => True
  | .seq _ fs => fun x => match x with
    | .struct xs => fs.TextOk xs
    | _ => True
  | .set _ _ fs => fun x => match x with
    | .struct xs => fs.TextOk xs
    | _ => True
  | .choice _ _ => fun _ => True
def PFields.TextOk : PFields → List Val → Prop
  | .nil => fun _ => True
  | .cons _ kind _ t rest => fun xs => match xs with
    | x :: xs => (match kind, x with
        | .mandatory, x => t.TextOk x
        | _, .present y => t.TextOk y
        | .default d, .absent => ∃ y e, t.ty.Rep d y e ∧ t.TextOk y
        | _, _ => True) ∧ rest.TextOk xs
    | [] => True
end

mutual
/-- The members have the names of the components of the ASN.1 type. -/
def PTy.Of (tree : Tree) : PTy → Module → AType → Prop
  | .leaf _ _ _ => fun mod t => ∃ wm k, Ast.Spec.Core tree mod t wm (.leaf k)
  | .seqOf _ p => fun mod t => ∃ wm n u s, (Ast.Spec.Core tree mod t wm (.seqOf n u s) ∨ Ast.Spec.Core tree mod t wm (.setOf n u s)) ∧ p.Of tree wm u
  | .seq _ fs => fun mod t => ∃ wm cs e, Ast.Spec.Core tree mod t wm (.sequence cs e) ∧ fs.Of tree wm cs
  | .set _ _ fs => fun mod t => ∃ wm cs e, Ast.Spec.Core tree mod t wm (.set cs e) ∧ fs.Of tree wm cs
  | .choice _ as => fun mod t => ∃ wm as' s, Ast.Spec.Core tree mod t wm (.choice as' s) ∧ as.Of tree wm as'
def PFields.Of (tree : Tree) : PFields → Module → List Ast.Comp → Prop
  | .nil => fun _ cs => cs = []
  | .cons name _ _ p rest => fun mod cs => ∃ c cs', cs = c :: cs' ∧ name = c.name ∧ p.Of tree mod c.type ∧ rest.Of tree mod cs'
def PAlts.Of (tree : Tree) : PAlts → Module → List Named → Prop
  | .nil => fun _ as => as = []
  | .cons _ p rest => fun mod as => ∃ a as', as = a :: as' ∧ p.Of tree mod a.type ∧ rest.Of tree mod as'
end

/-! ## The same for the ASN.1 types -/

/-- Simple types. -/
def tellsLeaf (real : Bytes → Json → Prop) (k : Builtin) (c : Bytes) (j : Json) : Prop :=
  match k with
  | .integer => j = .int (twosComplement c)
  | .enumerated => ∃ n, j = .string (nameChars n)
  | .boolean => j = .bool (c ≠ [0])
  | .null => j = .null
  | .octetString => j = describeText c
  | .bitString => j = describeText c
  | .charString _ => j = describeText c
  | .objectIdentifier => j = .array ((oidComponents c).map .int)
  | .real => real c j
  | _ => False

mutual
/-- The JSON value tells what the value of the ASN.1 type `t` of module `mod` is.  Which name an enumerator has and which value is the default of
a component is not said here: both are not in the syntax trees (`PTy.Describes` says it). -/
inductive Tells (real : Bytes → Json → Prop) (tree : Tree) : Module → AType → Val → Json → Prop
  | leaf {mod t wm k c j} : Ast.Spec.Core tree mod t wm (.leaf k) → tellsLeaf real k c j → Tells real tree mod t (.content c) j
  | list {mod t wm n u s xs js} : Ast.Spec.Core tree mod t wm (.seqOf n u s) ∨ Ast.Spec.Core tree mod t wm (.setOf n u s) → TellsAll real tree wm u xs js →
      Tells real tree mod t (.list xs) (.array js)
  | sequence {mod t wm cs e xs ms} : Ast.Spec.Core tree mod t wm (.sequence cs e) → TellsMembers real tree wm cs xs ms →
      Tells real tree mod t (.struct xs) (.object ms)
  | set {mod t wm cs e xs ms} : Ast.Spec.Core tree mod t wm (.set cs e) → TellsMembers real tree wm cs xs ms →
      Tells real tree mod t (.struct xs) (.object ms)
  | choice {mod t wm as s i a x j} : Ast.Spec.Core tree mod t wm (.choice as s) → as[i]? = some a → Tells real tree wm a.type x j →
      Tells real tree mod t (.alt i x) j
/-- Element by element. -/
inductive TellsAll (real : Bytes → Json → Prop) (tree : Tree) : Module → AType → List Val → List Json → Prop
  | nil {mod t} : TellsAll real tree mod t [] []
  | cons {mod t x xs j js} : Tells real tree mod t x j → TellsAll real tree mod t xs js → TellsAll real tree mod t (x :: xs) (j :: js)
/-- A member for each component, in order and with its name. -/
inductive TellsMembers (real : Bytes → Json → Prop) (tree : Tree) : Module → List Ast.Comp → List Val → List (List JChar × Json) → Prop
  | nil {mod} : TellsMembers real tree mod [] [] []
  | mandatory {mod c cs x xs j ms} : (c.optional || c.default.isSome) = false → Tells real tree mod c.type x j → TellsMembers real tree mod cs xs ms →
      TellsMembers real tree mod (c :: cs) (x :: xs) ((nameChars c.name, j) :: ms)
  | present {mod c cs x xs j ms} : (c.optional || c.default.isSome) = true → Tells real tree mod c.type x j → TellsMembers real tree mod cs xs ms →
      TellsMembers real tree mod (c :: cs) (.present x :: xs) ((nameChars c.name, j) :: ms)
  | absent {mod c cs xs ms} : (c.optional || c.default.isSome) = true → TellsMembers real tree mod cs xs ms →
      TellsMembers real tree mod (c :: cs) (.absent :: xs) ((nameChars c.name, .null) :: ms)
  | default {mod c cs y xs j ms} : (c.optional || c.default.isSome) = true → Tells real tree mod c.type y j → TellsMembers real tree mod cs xs ms →
      TellsMembers real tree mod (c :: cs) (.absent :: xs) ((nameChars c.name, j) :: ms)
end

end FastBer.Show
