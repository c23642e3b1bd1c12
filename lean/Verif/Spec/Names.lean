import Verif.Base
/-!
# Reference notions for names and literals

* ASN.1 names (X.680 12.2, 12.3), C++ identifiers and keywords.
* What an ASN.1 hstring / cstring denotes (X.680 12.12, 12.14, 23.3).
* What a C++ narrow string literal denotes ([lex.string], [lex.ccon]).
Nothing here refers to the model.
-/
namespace FastBer.Names.Spec

def letter (c : Char) : Prop := ('A' ≤ c ∧ c ≤ 'Z') ∨ ('a' ≤ c ∧ c ≤ 'z')
def digit (c : Char) : Prop := '0' ≤ c ∧ c ≤ '9'

/-- X.680 12.2.1 / 12.3: letters, digits and hyphens; starts with a letter; a hyphen is neither last nor
followed by another hyphen. -/
structure AsnName (n : List Char) : Prop where
  start : ∃ c cs, n = c :: cs ∧ letter c
  chars : ∀ c ∈ n, letter c ∨ digit c ∨ c = '-'
  last : n.getLast? ≠ some '-'
  twice : ∀ p q, n ≠ p ++ '-' :: '-' :: q

/-- A C++ identifier over the basic character set. -/
structure CppIdentifier (n : List Char) : Prop where
  start : ∃ c cs, n = c :: cs ∧ (letter c ∨ c = '_')
  chars : ∀ c ∈ n, letter c ∨ digit c ∨ c = '_'

/-- The keywords and alternative operator spellings of C++20. -/
def cppKeywords : List (List Char) :=
  ["alignas", "alignof", "and", "and_eq", "asm", "auto", "bitand", "bitor", "bool", "break", "case",
   "catch", "char", "char8_t", "char16_t", "char32_t", "class", "compl", "concept", "const",
   "consteval", "constexpr", "const_cast", "continue", "co_await", "co_return", "co_yield", "decltype",
   "default", "delete", "do", "double", "dynamic_cast", "else", "enum", "explicit", "export", "extern",
   "false", "float", "for", "friend", "goto", "if", "inline", "int", "long", "mutable", "namespace",
   "new", "noexcept", "not", "not_eq", "nullptr", "operator", "or", "or_eq", "private", "protected",
   "public", "register", "reinterpret_cast", "requires", "return", "short", "signed", "sizeof",
   "static", "static_assert", "static_cast", "struct", "switch", "template", "this", "thread_local",
   "throw", "true", "try", "typedef", "typeid", "typename", "union", "unsigned", "using", "virtual",
   "void", "volatile", "wchar_t", "while", "xor", "xor_eq"].map String.toList

/-- Value of a hexadecimal digit. -/
def hexValue (c : Char) : Nat :=
  if '0' ≤ c ∧ c ≤ '9' then c.toNat - 48 else if 'A' ≤ c ∧ c ≤ 'F' then c.toNat - 55 else c.toNat - 87

/-- The octets of an hstring (X.680 23.3): two digits per octet; an odd number of digits is read as if
a zero digit followed the last. -/
def hexOctets : List Char → List Nat
  | [] => []
  | [a] => [16 * hexValue a]
  | a :: b :: rest => (16 * hexValue a + hexValue b) :: hexOctets rest

/-! ## C++ string literals -/

/-- State of reading a sequence of adjacent string literals. -/
inductive Lit where
  | closed
  | plain
  | escape
  | octal (digits acc : Nat)
  | hex (digits acc : Nat)
  deriving DecidableEq

def isOctal (c : Char) : Bool := '0' ≤ c && c ≤ '7'
def isHexDigit (c : Char) : Bool :=
  ('0' ≤ c && c ≤ '9') || ('A' ≤ c && c ≤ 'F') || ('a' ≤ c && c ≤ 'f')

/-- A character inside a literal: a quote closes it, a backslash starts an escape, a line break is an
error. -/
def plainStep (c : Char) : Option (List Nat × Lit) :=
  if c = '"' then some ([], .closed)
  else if c = '\\' then some ([], .escape)
  else if c = '\n' ∨ c = '\r' then none
  else some ([c.toNat], .plain)

/-- One character of source text: what it emits and the next state.  Adjacent literals are joined.  An
unknown escape denotes the character itself (GCC and Clang, with a warning).  Universal character names
(`\u`, `\U`, `\N`) are not described (`none`). -/
def litStep : Lit → Char → Option (List Nat × Lit)
  | .closed, c => if c = '"' then some ([], .plain) else none
  | .plain, c => plainStep c
  | .escape, c =>
    if isOctal c then some ([], .octal 1 (c.toNat - 48))
    else if c = 'x' then some ([], .hex 0 0)
    else if c = 'n' then some ([10], .plain)
    else if c = 't' then some ([9], .plain)
    else if c = 'v' then some ([11], .plain)
    else if c = 'b' then some ([8], .plain)
    else if c = 'r' then some ([13], .plain)
    else if c = 'f' then some ([12], .plain)
    else if c = 'a' then some ([7], .plain)
    else if c = 'u' ∨ c = 'U' ∨ c = 'N' ∨ c = '\n' ∨ c = '\r' then none
    else some ([c.toNat], .plain)
  | .octal k acc, c =>
    if isOctal c && k < 3 then some ([], .octal (k + 1) (8 * acc + (c.toNat - 48)))
    else (plainStep c).map fun r => (acc :: r.1, r.2)
  | .hex k acc, c =>
    if isHexDigit c then some ([], .hex (k + 1) (16 * acc + hexValue c))
    else if k = 0 then none
    else (plainStep c).map fun r => (acc :: r.1, r.2)

/-- The characters denoted by the rest of the source text; `none` when it is ill-formed. -/
def litRun : Lit → List Char → Option (List Nat)
  | .closed, [] => some []
  | _, [] => none
  | s, c :: cs => (litStep s c).bind fun r => (litRun r.2 cs).map fun out => r.1 ++ out

/-- The characters of a string literal (or several adjacent ones) given as C++ source text. -/
def literal (src : List Char) : Option (List Nat) := litRun .closed src

/-- `absl::string_view(const char*)`: up to the first NUL. -/
def upToNul (cs : List Nat) : List Nat := cs.takeWhile (· ≠ 0)

/-! ## ASN.1 cstrings -/

/-- The characters of a cstring (X.680 12.14), given the text between its outer quotes: a pair of quotes
stands for one quote.  A cstring spanning lines loses the line break and the spacing around it; that case
is left out (`none`). -/
def cstring : List Char → Option (List Nat)
  | [] => some []
  | '"' :: '"' :: rest => (cstring rest).map (34 :: ·)
  | '"' :: _ => none
  | c :: rest => if c = '\n' ∨ c = '\r' then none else (cstring rest).map (c.toNat :: ·)

end FastBer.Names.Spec
