import Verif.Model.Prims
import Verif.Model.Regex
/-!
# Decimal REALs (src/ber_types/Real.cpp)

Models `decode_real_decimal`.  `std::regex_match` of a whole string is in Model/Regex; `absl::SimpleAtod` by the syntax it accepts.  The conversion of a decimal number to a `double` inside
`absl::from_chars` (abseil, not in this repository) is a parameter `round`, over which the theorems quantify: `round neg m e` is
the double made of (-1)^neg · m · 10^e.
-/
namespace FastBer

/-- `[0-9]` -/
def isDigit (b : UInt8) : Bool := 0x30 ≤ b && b ≤ 0x39

/-- `[ ]*` (src/ber_types/Real.cpp:8-10). -/
def rxSpaces : Rx := .star (.cls (· == 0x20))
/-- `[+-]?` (src/ber_types/Real.cpp:8-10). -/
def rxSign : Rx := .opt (.cls fun b => b == 0x2B || b == 0x2D)
/-- `[0-9]` (src/ber_types/Real.cpp:8-10). -/
def rxDigit : Rx := .cls isDigit
/-- `[\.\,]{1}` (src/ber_types/Real.cpp:8-10). -/
def rxMark : Rx := .cls fun b => b == 0x2E || b == 0x2C

/-- `([0-9]+[\.\,]{1}[0-9]*|[0-9]*[\.\,]{1}[0-9]+)` -/
def rxNumber : Rx :=
  .alt (.cat rxDigit.plus (.cat rxMark (.star rxDigit))) (.cat (.star rxDigit) (.cat rxMark rxDigit.plus))

/-- `g_iso_6093_nr1` (Real.cpp:8). -/
def rxNr1 : Rx := .cat rxSpaces (.cat rxSign rxDigit.plus)

/-- `g_iso_6093_nr2` (Real.cpp:9). -/
def rxNr2 : Rx := .cat rxSpaces (.cat rxSign rxNumber)

/-- `g_iso_6093_nr3` (Real.cpp:10). -/
def rxNr3 : Rx :=
  .cat rxSpaces (.cat rxSign (.cat rxNumber (.cat (.cls fun b => b == 0x45 || b == 0x65) (.cat rxSign rxDigit.plus))))

/-- `absl::ascii_isspace`.  (abseil, called in src/ber_types/Real.cpp:29) -/
def isSpace (b : UInt8) : Bool := (0x09 ≤ b && b ≤ 0x0D) || b == 0x20

/-- Decimal digits as a number.  (abseil, called in src/ber_types/Real.cpp:29) -/
def atoi (s : Bytes) : Nat := s.foldl (fun n b => 10 * n + (b.toNat - 0x30)) 0

/-- A `+` or `-` in front of an exponent.  (abseil, called in src/ber_types/Real.cpp:29) -/
def expSign : Bytes → Bool × Bytes
  | b :: s => if b = 0x2D then (true, s) else if b = 0x2B then (false, s) else (false, b :: s)
  | [] => (false, [])

/-- `absl::from_chars(…, chars_format::general)` on a whole string without a sign: digits with at most one dot and at least one
digit, and optionally an exponent; anything left over is an error of `SimpleAtod`.  ("inf" and "nan", which it also accepts,
never get here.).  (abseil, called in src/ber_types/Real.cpp:29) -/
def fromChars (round : Bool → Nat → Int → UInt64) (neg : Bool) (s : Bytes) : Option UInt64 :=
  let i := s.takeWhile isDigit
  let s := s.dropWhile isDigit
  let (f, s) := match s with
    | 0x2E :: s => (s.takeWhile isDigit, s.dropWhile isDigit)
    | s => ([], s)
  if (i ++ f).isEmpty then none
  else
    let m := atoi (i ++ f)
    match s with
    | [] => some (round neg m (-(f.length : Int)))
    | b :: s =>
      if b = 0x45 ∨ b = 0x65 then
        let (n, s) := expSign s
        if s.isEmpty then none
        else if s.all isDigit then
          some (round neg m ((if n then -(atoi s : Int) else (atoi s : Int)) - f.length))
        else none
      else none

/-- `absl::SimpleAtod` (abseil numbers.cc): strip white space, one sign, then `from_chars` of all of it. -/
def simpleAtod (round : Bool → Nat → Int → UInt64) (s : Bytes) : Option UInt64 :=
  let s := s.dropWhile isSpace
  let s := (s.reverse.dropWhile isSpace).reverse
  match s with
  | 0x2B :: 0x2D :: _ => none
  | 0x2B :: s => fromChars round false s
  | 0x2D :: s => fromChars round true s
  | s => fromChars round false s

/-- `decode_real_decimal` (Real.cpp:18-36): the new value of `output`, if successful.  The first octet is skipped;
`&input[1]` of contents with one octet is outside the span. -/
def decodeRealDecimal (round : Bool → Nat → Int → UInt64) (c : Bytes) : Exec (Option UInt64) :=
  if c.length ≤ 1 then .ub
  else
    let s := c.drop 1
    if rxNr1.run s || rxNr2.run s || rxNr3.run s then
      .ok (simpleAtod round (s.map fun b => if b = 0x2C then 0x2E else b))
    else .ok none

end FastBer
