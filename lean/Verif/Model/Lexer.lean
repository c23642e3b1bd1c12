import Verif.Model.Regex
import Verif.Model.Names
/-!
# The lexer of the schema compiler (src/compiler/asn_compiler.yacc:1817-1977)

The lexer is generated by re2c: of all rules the one with the longest match is taken, the first of these if there are several; the
generated code reads one character after the other until no rule can match a longer text, and goes back to the end of the longest
match.  With `yyfill:enable = 0` nothing tells it where the text ends but the NUL behind it (`buffer.c_str()`, CompilerMain.cpp:229), which
is a character like others; reading behind it is `ub`.

Left out: locations, the message for unknown symbols; `std::stod` (a real number keeps its text).  `return yylex(context_)` of a skipped
text is a loop.
-/
namespace FastBer.Lexer
open FastBer Names

/-- The characters of a literal.  (asn_compiler.yacc:1830-1973 has the literals.) -/
def bytes (s : String) : Bytes := s.toList.map fun c => UInt8.ofNat c.toNat

/-- A `std::string` as the list of characters of Model/Names.  (asn_compiler.yacc:1936-1945) -/
def chars (s : Bytes) : List Char := s.map fun b => Char.ofNat b.toNat

/-- What `yylex` returns.  Keywords and symbols are named by their text.  (asn_compiler.yacc:1817-1977) -/
inductive Tok where
  | sym (text : String)
  | real (text : Bytes)
  | number (n : Int)
  | negative (n : Int)
  | cstring (text : Bytes)
  | bstring (text : Bytes)
  | hstring (text : Bytes)
  | upper (name : List Char)
  | lower (name : List Char)
  | typeField (name : List Char)
  | valueField (name : List Char)
  deriving DecidableEq, Repr

/-- The actions of the rules; `skip` is `return yylex(context_)`.  (asn_compiler.yacc:1817-1977) -/
inductive Action where
  | skip | eof | sym (text : String) | real | number | negative | cstring | bstring | hstring | upper | lower | typeField | valueField
  deriving DecidableEq, Repr

/-- The keywords, in the order of the rules (asn_compiler.yacc:1831-1922). -/
def keywords : List String :=
  ["ABSENT", "ABSTRACT-SYNTAX", "ALL", "ANY", "APPLICATION", "AUTOMATIC", "BEGIN", "BIT", "BMPString", "BOOLEAN", "BY",
   "CHARACTER", "CHOICE", "CLASS", "COMPONENT", "COMPONENTS", "CONSTRAINED", "CONTAINING", "DATE", "DATE-TIME", "DEFAULT",
   "DEFINITIONS", "DURATION", "EMBEDDED", "ENCODED", "ENCODING_CONTROL", "END", "ENUMERATED", "EXCEPT", "EXPLICIT", "EXPORTS",
   "EXTENSIBILITY", "EXTERNAL", "FALSE", "FROM", "GeneralizedTime", "GeneralString", "GraphicString", "IA5String",
   "IDENTIFIER", "IMPLICIT", "IMPLIED", "IMPORTS", "INCLUDES", "INSTANCE", "INSTRUCTIONS", "INTEGER", "INTERSECTION",
   "ISO646String", "MAX", "MIN", "MINUS-INFINITY", "NOT-A-NUMBER", "NULL", "NumericString", "OBJECT", "ObjectDescriptor",
   "OCTET", "OF", "OID_IRI", "OPTIONAL", "PATTERN", "PDV", "PLUS_INFINITY", "PRESENT", "PrintableString", "PRIVATE", "REAL",
   "RELATIVE-OID", "RELATIVE-OID-IRI", "SEQUENCE", "SET", "SETTINGS", "SIZE", "STRING", "SYNTAX", "T61String", "TAGS",
   "TeletexString", "TIME", "TIME-OF-DAY", "TRUE", "TYPE-IDENTIFIER", "UNION", "UNIQUE", "UNIVERSAL", "UniversalString",
   "UTCTime", "UTF8String", "VideotexString", "VisibleString", "WITH"]

/-- The symbols, in the order of the rules (asn_compiler.yacc:1955-1973). -/
def symbols : List String :=
  ["::=", "...", "..", "{", "}", "(", ")", "[", "]", ":", ";", ",", "-", ".", "|", "!", "<", "^", "@"]

/-- `"..."`: a literal.  (asn_compiler.yacc:1817-1977) -/
def lit : Bytes → Rx
  | [] => .eps
  | c :: s => .cat (.cls (· == c)) (lit s)

/-- `[A-Z]` (asn_compiler.yacc:1942, 1944). -/
def upperCase (b : UInt8) : Bool := 0x41 ≤ b && b ≤ 0x5A
/-- `[a-z]` (asn_compiler.yacc:1943, 1945). -/
def lowerCase (b : UInt8) : Bool := 0x61 ≤ b && b ≤ 0x7A
/-- `[0-9]` (asn_compiler.yacc:1933-1935). -/
def decDigit (b : UInt8) : Bool := 0x30 ≤ b && b ≤ 0x39
/-- `[A-Za-z_0-9]` -/
def wordChar (b : UInt8) : Bool := upperCase b || lowerCase b || b == 0x5F || decDigit b

/-- `([\-]?[^\r\n\-])*`.  (asn_compiler.yacc:1925) -/
def rxCommentBody : Rx := .star (.cat (.opt (.cls (· == 0x2D))) (.cls fun b => b != 0x0D && b != 0x0A && b != 0x2D))

/-- `"--" ([\-]?[^\r\n\-])* "--"` (1925).  (asn_compiler.yacc:1925) -/
def rxComment : Rx := .cat (lit [0x2D, 0x2D]) (.cat rxCommentBody (lit [0x2D, 0x2D]))

/-- `"--" ([\-]?[^\r\n\-])*[\-]?` (1927).  (asn_compiler.yacc:1927) -/
def rxLineComment : Rx := .cat (lit [0x2D, 0x2D]) (.cat rxCommentBody (.opt (.cls (· == 0x2D))))

/-- `([^\*]|([\*]+[^\*\/]))*`.  (asn_compiler.yacc:1929) -/
def rxBlockBody : Rx :=
  .star (.alt (.cls (· != 0x2A)) (.cat (.plus (.cls (· == 0x2A))) (.cls fun b => b != 0x2A && b != 0x2F)))

/-- `"/*" ([^\*]|([\*]+[^\*\/]))*[\*]+ "/"` (1929).  (asn_compiler.yacc:1929) -/
def rxBlock : Rx := .cat (lit [0x2F, 0x2A]) (.cat rxBlockBody (.cat (.plus (.cls (· == 0x2A))) (lit [0x2F])))

/-- `[0-9]+` (1934). -/
def rxDigits : Rx := .plus (.cls decDigit)

/-- `[0-9]+'\.'[0-9]+` (1933). -/
def rxReal : Rx := .cat rxDigits (.cat (lit [0x2E]) rxDigits)

/-- `"-"[0-9]+` (1935). -/
def rxNegative : Rx := .cat (lit [0x2D]) rxDigits

/-- `['\"']`: a character class, an apostrophe or a quotation mark.  (asn_compiler.yacc:1936) -/
def quote (b : UInt8) : Bool := b == 0x27 || b == 0x22

/-- `('\\'.|"\"\""|[^'\"'])*`; `.` is any character but a newline. -/
def rxStringBody : Rx := .star (.alt (.cat (lit [0x5C]) (.cls (· != 0x0A))) (.alt (lit [0x22, 0x22]) (.cls fun b => !quote b)))

/-- `['\"']('\\'.|"\"\""|[^'\"'])*['\"']` (1936).  (asn_compiler.yacc:1936) -/
def rxString : Rx := .cat (.cls quote) (.cat rxStringBody (.cls quote))

/-- `['\'']('0'|'1')*['\'']"B"` (1938).  (asn_compiler.yacc:1938) -/
def rxBstring : Rx := .cat (lit [0x27]) (.cat (.star (.cls fun b => b == 0x30 || b == 0x31)) (lit [0x27, 0x42]))

/-- `[0-9A-Fa-f]` -/
def hexDigit (b : UInt8) : Bool := decDigit b || (0x41 ≤ b && b ≤ 0x46) || (0x61 ≤ b && b ≤ 0x66)

/-- `['\''][0-9A-Fa-f]*['\'']"H"` (1940). -/
def rxHstring : Rx := .cat (lit [0x27]) (.cat (.star (.cls hexDigit)) (lit [0x27, 0x48]))

/-- `([\-]?[A-Za-z_0-9])*` -/
def rxTail : Rx := .star (.cat (.opt (.cls (· == 0x2D))) (.cls wordChar))

/-- `[A-Z]([\-]?[A-Za-z_0-9])*` (1942). -/
def rxUpper : Rx := .cat (.cls upperCase) rxTail

/-- `[a-z]([\-]?[A-Za-z_0-9])*` (1943). -/
def rxLower : Rx := .cat (.cls lowerCase) rxTail

/-- The rules between the keywords and the symbols (asn_compiler.yacc:1924-1952). -/
def middle : List (Rx × Action) :=
  [(rxComment, .skip), (rxLineComment, .skip), (rxBlock, .skip), (rxReal, .real), (rxDigits, .number), (rxNegative, .negative),
   (rxString, .cstring), (rxBstring, .bstring), (rxHstring, .hstring), (rxUpper, .upper), (rxLower, .lower),
   (.cat (lit [0x26]) rxUpper, .typeField), (.cat (lit [0x26]) rxLower, .valueField), (lit [0], .eof),
   (.alt (lit [0x0D, 0x0A]) (lit [0x0A]), .skip), (.cls fun b => b == 0x09 || b == 0x0B || b == 0x08 || b == 0x0C || b == 0x20, .skip)]

/-- All rules, in order (asn_compiler.yacc:1830-1974); the last is `.`. -/
def rules : List (Rx × Action) :=
  keywords.map (fun k => (lit (bytes k), .sym k)) ++ middle ++ symbols.map (fun k => (lit (bytes k), .sym k)) ++
    [(.cls (· != 0x0A), .skip)]

/-- Nothing matches.  (asn_compiler.yacc:1817-1977) -/
def dead : Rx → Bool
  | .none => true
  | .eps => false
  | .cls _ => false
  | .cat a b => dead a || dead b
  | .alt a b => dead a && dead b
  | .star _ => false

/-- Nothing matches but perhaps the empty text: the generated code has no transition to try and does not read on.  (asn_compiler.yacc:1817-1977) -/
def stuck : Rx → Bool
  | .none => true
  | .eps => true
  | .cls _ => false
  | .cat a b => dead a || dead b || (stuck a && stuck b)
  | .alt a b => stuck a && stuck b
  | .star a => stuck a

/-- The automaton: `rs` are the rules after the `n` characters read so far, `best` the longest match so far (`YYMARKER`, `yyaccept`).  (asn_compiler.yacc:1817-1977) -/
def scan (rs : List (Rx × Action)) (best : Option (Action × Nat)) (n : Nat) (mem : Bytes) : Exec (Option (Action × Nat)) :=
  let best := match rs.find? (·.1.nullable) with
    | some r => some (r.2, n)
    | none => best
  if rs.all (stuck ·.1) then .ok best
  else
    match mem with
    | [] => .ub
    | c :: mem => scan (rs.map fun r => (r.1.deriv c, r.2)) best (n + 1) mem

/-- One rule: the action, the text matched and what is left.  There is always a match (`Lexer.lexOne_some`); without one the generated
code would run into the next state.  (asn_compiler.yacc:1817-1977) -/
def lexOne (mem : Bytes) : Exec (Action × Bytes × Bytes) :=
  match scan rules none 0 mem with
  | .ok (some (a, n)) => .ok (a, mem.take n, mem.drop n)
  | .ok none => .ub
  | .ub => .ub
  | .loop => .loop

/-- `std::stoll` of a text of digits: `std::out_of_range` above 2^63 - 1 (2^63 for negative numbers).  (asn_compiler.yacc:1934-1935) -/
def stoll (neg : Bool) (s : Bytes) : Option Int :=
  let n : Nat := s.foldl (fun n b => 10 * n + (b.toNat - 0x30)) 0
  if neg then (if n ≤ 2 ^ 63 then some (-(n : Int)) else none) else (if n < 2 ^ 63 then some n else none)

/-- The token made of a matched text (asn_compiler.yacc:1933-1945): `none` if an exception is thrown. -/
def token (a : Action) (s : Bytes) : Option Tok :=
  match a with
  | .sym k => some (.sym k)
  | .real => some (.real s)
  | .number => (stoll false s).map .number
  | .negative => (stoll true (s.drop 1)).map .negative
  | .cstring => some (.cstring s)
  -- `std::string(start + 1, cursor - 2)`
  | .bstring => some (.bstring ((s.drop 1).take (s.length - 3)))
  | .hstring => some (.hstring ((s.drop 1).take (s.length - 3)))
  | .upper => some (.upper (santizeName (chars s)))
  | .lower => some (.lower (santizeName (chars s)))
  | .typeField => some (.typeField (santizeName (chars s)))
  | .valueField => some (.valueField (santizeName (chars s)))
  | _ => none

/-- The tokens up to the end of the file: `yylex` called until it returns END_OF_FILE.  `none`: an exception.  (asn_compiler.yacc:1817-1977) -/
def lexFrom : Nat → Bytes → Exec (Option (List Tok))
  | 0, _ => .loop
  | fuel + 1, mem => do
    let (a, s, rest) ← lexOne mem
    match a with
    | .skip => lexFrom fuel rest
    | .eof => .ok (some [])
    | a =>
      match token a s with
      | none => .ok none
      | some t => do
        let ts ← lexFrom fuel rest
        .ok (ts.map (t :: ·))

/-- All tokens of a file: its text is followed by a NUL.  (asn_compiler.yacc:1817-1977) -/
def lex (file : Bytes) : Exec (Option (List Tok)) := lexFrom (file.length + 2) (file ++ [0])

end FastBer.Lexer
