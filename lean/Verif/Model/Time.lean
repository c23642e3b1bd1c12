import Verif.Model.Schema
/-!
# GeneralizedTime

Models the member functions of `ber_types/GeneralizedTime.hpp` not in `Model/Schema.lean` (which has `decode`, the
default constructor and `encode`).

`absl::FormatTime` and `absl::ParseTime` are parameters: `fmt` is the text of "%E4Y%m%d%H%M%S" for a time, `parse` the
result of parsing such a text (`none`: the function throws).  `T` is the type of times.
-/
namespace FastBer

/-- `enum class TimeFormat` (GeneralizedTime.hpp:24-29). -/
inductive TimeFormat where
  | universal | universalWithTimezone | local_
  deriving Repr, DecidableEq

namespace Time

/-- `set_time(const absl::Time&)` (GeneralizedTime.hpp:70-77); the format only adds a `Z`. -/
def setTime (id : Ident) (c : Cont) (text : Bytes) : Cont := Cont.assignContent id c (text ++ [0x5A])

/-- `set_time(const absl::CivilSecond&)` (GeneralizedTime.hpp:79-87). -/
def setCivil (id : Ident) (c : Cont) (text : Bytes) : Cont := Cont.assignContent id c text

/-- Decimal digit.  (`snprintf`, GeneralizedTime.hpp:96) -/
def digit (n : Nat) : UInt8 := UInt8.ofNat (48 + n % 10)

/-- Decimal digits of a natural number, as `%d` prints them.  (`snprintf`, GeneralizedTime.hpp:96) -/
def decDigits (n : Nat) : Bytes := if n < 10 then [digit n] else decDigits (n / 10) ++ [digit n]
termination_by n

/-- `%2.2d` of a number that is not negative.  (`snprintf`, GeneralizedTime.hpp:96) -/
def twoDigits (n : Nat) : Bytes := if n < 10 then [0x30, digit n] else decDigits n

/-- The five characters `snprintf` leaves in `timezone_extension` (GeneralizedTime.hpp:94-98): at most five characters are
stored, what is beyond the text is `'\0'`. -/
def timezoneText (minutes : Int) : Bytes :=
  let s := (if minutes ≥ 0 then 0x2B else 0x2D) :: (twoDigits (minutes.natAbs / 60) ++ twoDigits (minutes.natAbs % 60))
  s.take 5 ++ List.replicate (5 - s.length) 0

/-- `set_time(const absl::Time&, int)` (GeneralizedTime.hpp:89-103). -/
def setTimeZone (id : Ident) (c : Cont) (text : Bytes) (minutes : Int) : Cont :=
  Cont.assignContent id c (text ++ timezoneText minutes)

/-- `format()` (GeneralizedTime.hpp:105-121): `back()` of an empty span and an index outside the span are `ub`. -/
def format (c : Cont) : Exec TimeFormat := do
  let x ← c.content
  match x.getLast? with
  | none => .ub
  | some b =>
    if b = 0x5A then .ok .universal
    else if c.len < 5 then .ub
    else
      match x[c.len - 5]? with
      | none => .ub
      | some b => if b = 0x2D ∨ b = 0x2B then .ok .universalWithTimezone else .ok .local_

/-- `string()` (GeneralizedTime.hpp:156-160). -/
def string (c : Cont) : Exec Bytes := c.content

/-- `time()` (GeneralizedTime.hpp:123-154): the text handed to `ParseTime` (for `universal`, without the literal `Z` of the
format); `none` is an exception. -/
def time {T : Type} (parse : Bytes → Option T) (c : Cont) : Exec (Option T) := do
  let f ← format c
  let s ← string c
  match f with
  | .universal => .ok (parse (s.take (s.length - 1)))
  | .universalWithTimezone => .ok (parse (s.take (s.length - 5)))
  | .local_ => .ok (parse s)

/-- `operator==` (GeneralizedTime.hpp:58-62); `none`: an exception. -/
def eq {T : Type} [DecidableEq T] (parse : Bytes → Option T) (a b : Cont) : Exec (Option Bool) := do
  let x ← time parse a
  let y ← time parse b
  match x, y with
  | some x, some y => .ok (some (x == y))
  | _, _ => .ok none

end Time

end FastBer
