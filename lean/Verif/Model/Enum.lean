import Verif.Model.Ast
/-!
# The C++ enumeration written for an ENUMERATED type

Models the first case of `create_type_assignment` (src/compiler/TypeAsString.cpp:396-411) and what the written declaration means (C++11
7.2 [dcl.enum]).
-/
namespace FastBer.Enum
open FastBer Ast

/-- A line of an enum declaration: `name = number,` or `name,`. -/
abbrev Line := Name × Option Int

/-- The lines between the braces of `enum class NameValues` (TypeAsString.cpp:399-411).  An item without a number is written without one. -/
def lines (items : List (Name × Option Int)) : List Line :=
  items.map fun i => match i.2 with
    | some v => (i.1, some v)
    | none => (i.1, none)

/-- C++11 7.2/2: an enumerator without a number is one more than the one before it, the first one is 0.  7.2/5: the type below is `int`, so a
number beyond it is an error.  Two enumerators may have the same number, but not the same name. -/
def enumerators : (next : Int) → List Line → Option (List (Name × Int))
  | _, [] => some []
  | next, (n, v) :: ls =>
    let i := v.getD next
    if -2147483648 ≤ i ∧ i ≤ 2147483647 then
      match enumerators (i + 1) ls with
      | some es => if es.any (·.1 == n) then none else some ((n, i) :: es)
      | none => none
    else none

/-- The constants of the enumeration the compiler writes for the items, none if the C++ compiler rejects it.  (TypeAsString.cpp:396-411) -/
def constants (items : List (Name × Option Int)) : Option (List (Name × Int)) := enumerators 0 (lines items)

end FastBer.Enum
