import Verif.Base
/-!
# Names and literals written into the generated C++

Models `src/compiler/CompilerTypes.cpp:22-184` (`reserved_keywords`, `santize_name`),
`src/compiler/ValueAsString.cpp:5-26, 91-101` (hexadecimal and character string values) and the lexer
rules of `src/compiler/asn_compiler.yacc:1936-1945`.  A `std::string` is a list of characters.
-/
namespace FastBer.Names

/-- `reserved_keywords` (CompilerTypes.cpp:22-168), entry by entry.  There is no comma between
`"xor_eq"` and `"BMPString"` (120-122), so the C++ compiler joins the two literals into one entry. -/
def reservedKeywords : List (List Char) :=
  ["alignas", "alignof", "and", "and_eq", "asm", "atomic_cancel", "atomic_commit", "atomic_noexcept",
   "auto", "bitand", "bitor", "bool", "break", "case", "catch", "char", "char8_t", "char16_t",
   "char32_t", "class", "compl", "concept", "const", "consteval", "constexpr", "const_cast",
   "continue", "co_await", "co_return", "co_yield", "decltype", "default", "delete", "do", "double",
   "dynamic_cast", "else", "enum", "explicit", "export", "extern", "false", "float", "for", "friend",
   "goto", "if", "import", "inline", "int", "long", "module", "mutable", "namespace", "new",
   "noexcept", "not", "not_eq", "nullptr", "operator", "or", "or_eq", "private", "protected", "public",
   "reflexpr", "register", "reinterpret_cast", "requires", "return", "short", "signed", "sizeof",
   "static", "static_assert", "static_cast", "struct", "switch", "synchronized", "template", "this",
   "thread_local", "throw", "true", "try", "typedef", "typeid", "typename", "union", "unsigned",
   "using", "virtual", "void", "volatile", "wchar_t", "while", "xor", "xor_eqBMPString", "BitString",
   "Boolean", "CharacterString", "Choice", "Date", "DateTime", "Duration", "EmbeddedPDV", "Enumerated",
   "External", "GeneralString", "GeneralizedTime", "GraphicString", "IA5String", "IRI", "ISO646String",
   "Id", "Identifier", "InstanceOf", "Integer", "Null", "NumericString", "ObjectIdentifier",
   "OctetString", "Optional", "Prefixed", "PrintableString", "Real", "RelativeIRI", "RelativeOID",
   "Sequence", "SequenceOf", "Set", "SetOf", "TaggedType", "TeletexString", "Time", "TimeOfDay",
   "UTCTime", "UTF8String", "UniversalString", "VideotexString", "VisibleString", "decode", "encode",
   "encoded_length"].map String.toList

/-- `std::replace(copy.begin(), copy.end(), '-', '_')` (CompilerTypes.cpp:176). -/
def hyphens (n : List Char) : List Char := n.map fun c => if c = '-' then '_' else c

/-- `santize_name` (CompilerTypes.cpp:173-183). -/
def santizeName (n : List Char) : List Char :=
  let copy := hyphens n
  if reservedKeywords.contains copy then copy ++ ['_'] else copy

/-! ## Lexer rules for names (asn_compiler.yacc:1942-1943) -/

/-- `[A-Z]` (asn_compiler.yacc:1942). -/
def isUpper (c : Char) : Bool := 'A' ≤ c && c ≤ 'Z'
/-- `[a-z]` (asn_compiler.yacc:1943). -/
def isLower (c : Char) : Bool := 'a' ≤ c && c ≤ 'z'
/-- `[0-9]` (asn_compiler.yacc:1942-1943). -/
def isDigit (c : Char) : Bool := '0' ≤ c && c ≤ '9'
/-- `[A-Za-z0-9]` (asn_compiler.yacc:1942-1943). -/
def isAlnum (c : Char) : Bool := isUpper c || isLower c || isDigit c

/-- `([\-]?[A-Za-z_0-9])*` -/
def lexTail : List Char → Bool
  | [] => true
  | '-' :: c :: cs => (isAlnum c || c = '_') && lexTail cs
  | c :: cs => (isAlnum c || c = '_') && lexTail cs

/-- `[A-Z]([\-]?[A-Za-z_0-9])*` or `[a-z]([\-]?[A-Za-z_0-9])*`: the texts the lexer takes for a name. -/
def isLexedName : List Char → Bool
  | [] => false
  | c :: cs => (isUpper c || isLower c) && lexTail cs

/-! ## Values -/

/-- `std::stoi(digit, nullptr, 16)` of one hexadecimal digit.  (ValueAsString.cpp:14, 22) -/
def hexDigit (c : Char) : Nat :=
  if isDigit c then c.toNat - '0'.toNat
  else if isUpper c then c.toNat - 'A'.toNat + 10
  else c.toNat - 'a'.toNat + 10

/-- `[0-9A-Fa-f]` (asn_compiler.yacc:1940) -/
def isHex (c : Char) : Bool := isDigit c || ('A' ≤ c && c ≤ 'F') || ('a' ≤ c && c ≤ 'f')

/-- `std::to_string` of an `int` (never negative here).  (ValueAsString.cpp:14, 22) -/
def decimal (n : Nat) : List Char := (Nat.toDigits 10 n)

/-- The main loop of `cpp_value(HexStringValue)` (ValueAsString.cpp:18-23). -/
def hexPairs : List Char → List Char
  | a :: b :: rest => '\\' :: (decimal (16 * hexDigit a + hexDigit b) ++ hexPairs rest)
  | _ => []

/-- `cpp_value(HexStringValue)` (ValueAsString.cpp:5-26): a string literal with one escape per octet. -/
def cppHex (h : List Char) : List Char :=
  '"' :: ((if h.length % 2 = 1 then
      match h with
      | a :: rest => '\\' :: (decimal (hexDigit a) ++ hexPairs rest)
      | [] => []
    else hexPairs h) ++ ['"'])

/-- Values of BIT STRING type (ValueAsString.cpp:62-74): always the empty literal. -/
def cppBits (_ : List Char) : List Char := ['"', '"']

/-- Character string values (ValueAsString.cpp:98-102, with asn_compiler.yacc:1936-1937): the ASN.1
text, quotes included, is copied into the C++ source. -/
def cppChars (lexeme : List Char) : List Char := lexeme

end FastBer.Names
