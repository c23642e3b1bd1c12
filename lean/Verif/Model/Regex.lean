import Verif.Base
/-!
# Regular expressions

Used for `std::regex_match` (Model/RealDecimal) and for the lexer generated by re2c (Model/Lexer).  Neither library is in this repository;
what they do is modelled by syntax trees and a matcher by derivatives, proved to accept the language of the expression
(Proofs/Regex).
-/
namespace FastBer

/-- Regular expressions over bytes: nothing, the empty string, one byte of a class, sequence, alternative, repetition.  (Not code of the repository: the library behind src/ber_types/Real.cpp:8-24 and the re2c rules of asn_compiler.yacc:1817-1977.) -/
inductive Rx where
  | none
  | eps
  | cls (p : UInt8 → Bool)
  | cat (a b : Rx)
  | alt (a b : Rx)
  | star (a : Rx)

namespace Rx

/-- Does the expression match the empty string?.  (Not code of the repository: the library behind src/ber_types/Real.cpp:8-24 and the re2c rules of asn_compiler.yacc:1817-1977.) -/
def nullable : Rx → Bool
  | .none => false
  | .eps => true
  | .cls _ => false
  | .cat a b => a.nullable && b.nullable
  | .alt a b => a.nullable || b.nullable
  | .star _ => true

/-- What is left to match after one byte.  (Not code of the repository: the library behind src/ber_types/Real.cpp:8-24 and the re2c rules of asn_compiler.yacc:1817-1977.) -/
def deriv (c : UInt8) : Rx → Rx
  | .none => .none
  | .eps => .none
  | .cls p => if p c then .eps else .none
  | .cat a b => if a.nullable then .alt (.cat (a.deriv c) b) (b.deriv c) else .cat (a.deriv c) b
  | .alt a b => .alt (a.deriv c) (b.deriv c)
  | .star a => .cat (a.deriv c) (.star a)

/-- `std::regex_match(s, r)`.  (Not code of the repository: the library behind src/ber_types/Real.cpp:8-24 and the re2c rules of asn_compiler.yacc:1817-1977.) -/
def run : Rx → Bytes → Bool
  | r, [] => r.nullable
  | r, c :: s => (r.deriv c).run s

/-- `x+`.  (Not code of the repository: the library behind src/ber_types/Real.cpp:8-24 and the re2c rules of asn_compiler.yacc:1817-1977.) -/
def plus (a : Rx) : Rx := .cat a (.star a)

/-- `x?`.  (Not code of the repository: the library behind src/ber_types/Real.cpp:8-24 and the re2c rules of asn_compiler.yacc:1817-1977.) -/
def opt (a : Rx) : Rx := .alt a .eps

end Rx

end FastBer
