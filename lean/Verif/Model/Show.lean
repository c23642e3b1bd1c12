import Verif.Model.Viewer
import Verif.Model.Emit
/-!
# Printing an object of a generated type

Models the output operators of the library types (`ber_types/*.hpp`) and those the compiler writes for SEQUENCE, SET, CHOICE and
ENUMERATED (`create_helper_functions`, GenerateHelpers.cpp; `create_choice_helpers`, GenerateChoice.cpp).

A stream is the list of octets written to it, as in Model/Viewer.  An outcome `.ok none` is an exception that leaves the operator.  What is
not modelled: `os << double` (`Host.real`); that the operators are declared where the C++ compiler looks for them (those of an ENUMERATED inside
a SEQUENCE OF without a name for its elements are not, Visit.hpp:33-51); recursive types.
-/
namespace FastBer.Show
open FastBer FastBer.Viewer FastBer.Ast

/-- What comes from outside the repository, and `os << value()` of a REAL (Real.hpp:644-647) as a function of its contents octets. -/
structure Host extends Viewer.Host where
  real : Bytes → Exec Bytes

/-- Sequencing of computations that may throw.  (Not code of its own: C++ statements one after the other.) -/
def andThen {α β : Type} (x : Exec (Option α)) (f : α → Exec (Option β)) : Exec (Option β) :=
  match x with
  | .ok (some a) => f a
  | .ok none => .ok none
  | .ub => .ub
  | .loop => .loop

/-- A computation that does not throw.  (Not code of its own: C++ statements one after the other.) -/
def quiet {α : Type} (x : Exec α) : Exec (Option α) := do
  let a ← x
  .ok (some a)

mutual
/-- A generated C++ type, with the names of the members of its structs and of the enumerators of its enumerations (`values`, empty for
other simple types): what the printing code knows.  (TypeAsString.cpp:21-109, 396-411; GenerateChoice.cpp:8-47) -/
inductive PTy where
  | leaf (k : Leaf) (values : List (Int × Name)) (id : Ident)
  | seqOf (id : Ident) (t : PTy)
  | seq (id : Ident) (fs : PFields)
  | set (id : Ident) (ext : Bool) (fs : PFields)
  | choice (id : ChoiceIdent) (as : PAlts)
/-- Members of a struct.  (TypeAsString.cpp:21-109, 396-411; GenerateChoice.cpp:8-47) -/
inductive PFields where
  | nil
  | cons (name : Name) (kind : Kind) (labels : List Id) (t : PTy) (rest : PFields)
/-- Alternatives of a CHOICE: their names are not printed.  (TypeAsString.cpp:21-109, 396-411; GenerateChoice.cpp:8-47) -/
inductive PAlts where
  | nil
  | cons (labels : List Id) (t : PTy) (rest : PAlts)
end

mutual
/-- The type without the names (Model/Schema).  (Not code: relates the two models of types.) -/
def PTy.ty : PTy → Ty
  | .leaf k _ id => .leaf k id
  | .seqOf id t => .seqOf id t.ty
  | .seq id fs => .seq id fs.fields
  | .set id ext fs => .set id ext fs.fields
  | .choice id as => .choice id as.alts
/-- The components without the names.  Not code. -/
def PFields.fields : PFields → Fields
  | .nil => .nil
  | .cons _ kind labels t rest => .cons kind labels t.ty rest.fields
/-- The alternatives without the names.  Not code. -/
def PAlts.alts : PAlts → Alts
  | .nil => .nil
  | .cons labels t rest => .cons labels t.ty rest.alts
end

/-- The generated `to_string` (GenerateHelpers.cpp:115-128): the `case` with the number, else `default`. -/
def enumText (values : List (Int × Name)) (n : Int) : Bytes :=
  match values.lookup n with
  | some name => lit name
  | none => lit "Invalid state!"

/-- Output operators of the simple types: Integer.hpp:194-198, Enumerated.hpp:96-100 with GenerateHelpers.cpp:130-135,
Boolean.hpp:143-151, Null.hpp:100-104, Real.hpp:643-647, StringImpl.hpp:155-166, ObjectIdentifier.hpp:237-252, GeneralizedTime.hpp:185-189. -/
def showLeaf (h : Host) (k : Leaf) (values : List (Int × Name)) (id : Ident) : Obj → Exec (Option Bytes)
  | .raw d =>
    match k with
    | .int => quiet do
      let n ← Integer.value id d
      .ok (showInt n)
    | .enum => quiet do
      let n ← Enumerated.value id 32 d
      .ok (lit "\"" ++ enumText values n ++ lit "\"")
    | .bool => .ok (some (if Boolean.value d then lit "true" else lit "false"))
    | .null => .ok (some (lit "null"))
    | .real _ => quiet do
      let c ← Small.content id d
      h.real c
    | _ => .ub
  | .cont c =>
    match k with
    | .str => quiet (showString h.toHost c)
    | .oid => quiet do
      let cs ← Oid.value c
      .ok (lit "[" ++ showComponents cs ++ lit "]")
    | .time _ => Time.time h.time c
    | _ => .ub
  | _ => .ub

/-- `operator<<(std::ostream&, const SequenceOf&)` (SequenceOf.hpp:144-160), the loop. -/
def showItems (f : Obj → Exec (Option Bytes)) (first : Bool) : List Obj → Exec (Option Bytes)
  | [] => .ok (some [])
  | o :: os =>
    andThen (f o) fun s =>
    andThen (showItems f false os) fun rest =>
    .ok (some ((if first then [] else lit ", ") ++ s ++ rest))

/-- A member: itself, `Optional` (Optional.hpp:192-201) or `Default` (Default.hpp:183-187, `get()` 43). -/
def showMember (f : Obj → Exec (Option Bytes)) : Kind → Obj → Exec (Option Bytes)
  | .mandatory, o => f o
  | .optional, .none => .ok (some (lit "null"))
  | .optional, .some o => f o
  | .default d, .none => f d
  | .default _, .some o => f o
  | _, _ => .ub

/-- Between brackets.  (GenerateHelpers.cpp:98-146, SequenceOf.hpp) -/
def between (a b : String) (x : Exec (Option Bytes)) : Exec (Option Bytes) :=
  andThen x fun s => .ok (some (lit a ++ s ++ lit b))

mutual
/-- `os << object` for an object of the type.  SEQUENCE and SET: `create_ostream_operators` (GenerateHelpers.cpp:6-35); CHOICE:
GenerateChoice.cpp:265-271 and Choice.hpp:691-711, which visit the alternative held. -/
def PTy.show (h : Host) : PTy → Obj → Exec (Option Bytes)
  | .leaf k values id => showLeaf h k values id
  | .seqOf _ t => fun
    | .list os => between "[" "]" (showItems (t.show h) true os)
    | _ => .ub
  | .seq _ fs => fun
    | .struct os => between "{" "}" (fs.show h true os)
    | _ => .ub
  | .set _ _ fs => fun
    | .struct os => between "{" "}" (fs.show h true os)
    | _ => .ub
  | .choice _ as => fun
    | .alt i o => as.show h i o
    | _ => .ub
/-- The members one after the other; `first`: none has been written yet.  (GenerateHelpers.cpp:98-146) -/
def PFields.show (h : Host) : PFields → Bool → List Obj → Exec (Option Bytes)
  | .nil => fun _ os =>
    match os with
    | [] => .ok (some [])
    | _ => .ub
  | .cons name kind _ t rest => fun first os =>
    match os with
    | o :: os =>
      andThen (showMember (t.show h) kind o) fun s =>
      andThen (rest.show h false os) fun more =>
      .ok (some ((if first then [] else lit ", ") ++ lit "\"" ++ lit name ++ lit "\" : " ++ s ++ more))
    | [] => .ub
/-- The alternative held.  (GenerateChoice.cpp:245-274) -/
def PAlts.show (h : Host) : PAlts → Nat → Obj → Exec (Option Bytes)
  | .nil => fun _ _ => .ub
  | .cons _ t rest => fun i o =>
    match i with
    | 0 => t.show h o
    | i + 1 => rest.show h i o
end

end FastBer.Show
