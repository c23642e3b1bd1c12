import Verif.Base
/-!
# Braces and indentation of C++ text
-/
namespace FastBer.Code.Spec

/-- Brace depth after reading text, starting at depth `d`; `none` if a brace closes nothing. -/
def braces : Nat → List Char → Option Nat
  | d, [] => some d
  | d, '{' :: cs => braces (d + 1) cs
  | 0, '}' :: _ => none
  | d + 1, '}' :: cs => braces d cs
  | d, _ :: cs => braces d cs

/-- Every `{` is closed by a later `}` and vice versa. -/
def Balanced (t : List Char) : Prop := braces 0 t = some 0

/-- The text consists of lines, and each line that is not blank starts with exactly four spaces per brace
open before it — one brace fewer if the line itself starts by closing one. -/
def Indented (t : List Char) : Prop :=
  ∀ p q, (p = [] ∨ p.getLast? = some '\n') → t = p ++ q → q.head? ≠ some '\n' → q ≠ [] →
    ∃ d, braces 0 p = some d ∧ ∃ k r, q = List.replicate (4 * k) ' ' ++ r ∧ r.head? ≠ some ' ' ∧
      k = if r.head? = some '}' then d - 1 else d

/-- What callers of `add_line` pass: one line, not starting with a space or a closing brace, every brace
in it closed. -/
structure CleanLine (l : List Char) : Prop where
  newline : '\n' ∉ l
  space : l.head? ≠ some ' '
  close : l.head? ≠ some '}'
  braces : Balanced l

end FastBer.Code.Spec
