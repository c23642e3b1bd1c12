import Verif.Spec.Resolve
import Verif.Spec.Names
/-!
# The values of value assignments and DEFAULTs (X.680 16.1, 17, 32)
-/
namespace FastBer.Constants
open FastBer Ast

/-- Values of simple types. -/
inductive Const where
  | int (i : Int)
  | bool (b : Bool)
  /-- OCTET STRING and character strings, as numbers of octets or characters. -/
  | octets (l : List Nat)
  | real (bits : UInt64)
  /-- An item of the enumeration of that name: its number. -/
  | item (enumeration : Name) (number : Int)
  | oid (arcs : List Int)
  deriving DecidableEq

namespace Spec
open FastBer.Ast.Spec

/-- `t`, written in module `mod`, is the simple type `k` or a reference, possibly through others, to an assignment of it.  `n` is the name of that assignment, or `name`. -/
inductive Simple (tree : Tree) : Name → Name → AType → Builtin → Name → Prop
  | here {name mod : Name} {k : Builtin} : Simple tree name mod (.leaf k) k name
  | reference {name mod : Name} {m : Option Name} {ref : Name} {ps : List AType} {t : AType} {k : Builtin} {n : Name} :
      lookup tree (m.getD mod) ref = some (.type t) → Simple tree ref (m.getD mod) t k n → Simple tree name mod (.defined m ref ps) k n

/-- An arc written as a number or as a name with a number (X.680 32.3). -/
inductive Arc : Value → Int → Prop
  | number (i : Int) : Arc (.int i) i
  | named (n : Name) (i : Int) : Arc (.namedNumber n i) i

inductive Arcs : List Value → List Int → Prop
  | nil : Arcs [] []
  | cons {v : Value} {i : Int} {vs : List Value} {is : List Int} : Arc v i → Arcs vs is → Arcs (v :: vs) (i :: is)

/-- The names of the first arcs (X.680 32.7), as C++ names. -/
def rootArc (n : Name) : Option Int :=
  if n = "itu_t" then some 0 else if n = "iso" then some 1 else if n = "joint_iso_itu_t" then some 2 else none

/-- The arcs of an object identifier, the first of which may be a name without a number. -/
inductive Oid : List Value → List Int → Prop
  | numbers {vs : List Value} {is : List Int} : Arcs vs is → Oid vs is
  | root {n : Name} {i : Int} {vs : List Value} {is : List Int} : rootArc n = some i → Arcs vs is → Oid (.defined n :: vs) (i :: is)

/-- The value assigned to the name `ref` of module `mod`, or the one imported, with the module it is assigned in. -/
inductive Assigns (tree : Tree) : Name → Name → Name → AType → Value → Prop
  | here {mod ref : Name} {t : AType} {v : Value} : lookup tree mod ref = some (.value t v) → Assigns tree mod ref mod t v
  | imported {m : Module} {i : Import} {ref mod : Name} {t : AType} {v : Value} : tree.modules.find? (·.name == m.name) = some m → i ∈ m.imports → ref ∈ i.values →
      Assigns tree i.module ref mod t v → Assigns tree m.name ref mod t v

/-- The value `v`, written in module `mod` for the type `t`, is `c`. -/
inductive Denotes (tree : Tree) : Name → AType → Value → Const → Prop
  | int {mod n : Name} {t : AType} {i : Int} : Simple tree "" mod t .integer n → Denotes tree mod t (.int i) (.int i)
  | bool {mod n : Name} {t : AType} {b : Bool} : Simple tree "" mod t .boolean n → Denotes tree mod t (.bool b) (.bool b)
  | hex {mod n : Name} {t : AType} {s : String} : Simple tree "" mod t .octetString n → Denotes tree mod t (.hex s) (.octets (Names.Spec.hexOctets s.toList))
  | chars {mod n : Name} {t : AType} {k : Nat} {s : List Char} {l : List Nat} : Simple tree "" mod t (.charString k) n → Names.Spec.cstring s = some l →
      Denotes tree mod t (.chars (String.ofList ('"' :: (s ++ ['"'])))) (.octets l)
  | real {mod n : Name} {t : AType} {d : UInt64} : Simple tree "" mod t .real n → Denotes tree mod t (.real d) (.real d)
  | oid {mod n : Name} {t : AType} {vs : List Value} {is : List Int} : Simple tree "" mod t .objectIdentifier n → Oid vs is → Denotes tree mod t (.list vs) (.oid is)
  /-- A reference is to a value of the same simple type; for an ENUMERATED it is the name of an item instead. -/
  | reference {mod n : Name} {t : AType} {k : Builtin} {ref mod' n' : Name} {t' : AType} {v : Value} {c : Const} : Simple tree "" mod t k n → k ≠ .enumerated →
      Assigns tree mod ref mod' t' v → Simple tree "" mod' t' k n' → Denotes tree mod' t' v c → Denotes tree mod t (.defined ref) c

/-- The values of simple types the compiler and C++ keep: integers of 64 bits other than the least, hexadecimal strings of octets 1 to 7 (C59), strings without quotation mark and backslash (C74),
numbers that have no more than six decimals (`printed` is the double they are read as then), arcs with numbers. -/
def Kept (printed : UInt64 → UInt64) : Builtin → Value → Prop
  | .integer, .int i => -(2 ^ 63) < i ∧ i < 2 ^ 63
  | .boolean, .bool _ => True
  | .octetString, .hex s => (∀ c ∈ s.toList, Names.Spec.isHexDigit c = true) ∧ s.toList.length % 2 = 0 ∧ ∀ b ∈ Names.Spec.hexOctets s.toList, 1 ≤ b ∧ b ≤ 7
  | .charString _, .chars s => ∃ body, s = String.ofList ('"' :: (body ++ ['"'])) ∧ '"' ∉ body ∧ '\\' ∉ body ∧ '\x00' ∉ body ∧ '\n' ∉ body ∧ '\r' ∉ body
  | .real, .real d => printed d = d
  | .objectIdentifier, .list vs => ∀ v ∈ vs, (∃ i, v = .int i) ∨ ∃ n i, v = .namedNumber n i
  | _, _ => False

/-- The names of the values a module imports and assigns. -/
def importedValues (m : Module) : List Name := m.imports.flatMap (·.values)
def assignedValues (m : Module) : List Name := m.assignments.filterMap fun a => match a.body with
  | .value _ _ => some a.name
  | _ => none

/-- C++ constants of these types may be used in constant expressions although they are `const` only. -/
def integral : Builtin → Bool
  | .integer => true
  | .boolean => true
  | _ => false

/-- Modules whose values the compiler translates. -/
structure Constants (tree : Tree) (printed : UInt64 → UInt64) : Prop where
  /-- Names are distinct. -/
  modules : (tree.modules.map (·.name)).Nodup
  names : ∀ m ∈ tree.modules, (m.assignments.map (·.name)).Nodup
  values : ∀ m ∈ tree.modules, (importedValues m ++ assignedValues m).Nodup
  /-- Values are imported from modules written before. -/
  imports : ∀ before m after, tree.modules = before ++ m :: after → ∀ i ∈ m.imports, ∀ n ∈ i.values, ∃ w ∈ before, w.name = i.module ∧ n ∈ importedValues w ++ assignedValues w
  /-- A value is of a simple type; it is one that is kept, or the name of a value of that type that is written before and is not imported, unless it is an integer or truth value.
  References to object identifiers are not translated, nor are references to references to the type OBJECT IDENTIFIER. -/
  assigned : ∀ m ∈ tree.modules, ∀ pre a post, m.assignments = pre ++ a :: post → ∀ t v, a.body = .value t v → ∃ k n, Simple tree "" m.name t k n ∧
    (k = .objectIdentifier → t = .leaf k ∨ ∃ q ref ps, t = .defined q ref ps ∧ lookup tree (q.getD m.name) ref = some (.type (.leaf k))) ∧
    (Kept printed k v ∨ ∃ ref, v = .defined ref ∧ k ≠ .enumerated ∧ k ≠ .objectIdentifier ∧ k ≠ .bitString ∧
      (ref ∈ importedValues m ∧ integral k = true ∨ ∃ b ∈ pre, b.name = ref ∧ ∃ u x, b.body = .value u x) ∧
      ∀ mod' t' v', Assigns tree m.name ref mod' t' v' → ∃ n', Simple tree "" mod' t' k n')

end Spec
end FastBer.Constants
