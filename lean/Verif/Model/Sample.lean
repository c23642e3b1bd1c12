import Verif.Model.Api
/-!
# The sample programs

`sample/encode/main.cpp` builds a `Team` (testfiles/pokemon.asn), encodes it and writes it to a file, `sample/decode/main.cpp` reads the file, decodes it and prints the
`Team`.  The model takes the generated type for `Team` as an argument.  It generalises the team built in the source of the first program to any team, and stops before the streams: what
the first program passes to `write`, what the second one has read, and the values it passes to `<<`.
-/
namespace FastBer.Sample
open FastBer

/-- What the initialisers of `Pokemon` in sample/encode/main.cpp:10-13 say, and what sample/decode/main.cpp:37-42 prints.  `type` is the number of the enumerator. -/
structure Pokemon where
  name : Bytes
  category : Bytes
  type : Int
  ability : Bytes
  weakness : Bytes
  weight : Int

/-- What sample/encode/main.cpp:9-15 puts into `team`, and sample/decode/main.cpp:34-44 prints. -/
structure Team where
  name : Bytes
  members : List Pokemon

/-- The default identifiers of `OctetString`, `Enumerated` and `Integer`.  (OctetString.hpp, Enumerated.hpp:11, Integer.hpp:27) -/
def stringId : Ident := .single ⟨.universal, 4⟩
/-- See `stringId` (Enumerated.hpp:11). -/
def enumId : Ident := .single ⟨.universal, 10⟩
/-- See `stringId` (Integer.hpp:27). -/
def intId : Ident := .single ⟨.universal, 2⟩

/-- `OctetString(const char*)` (StringImpl.hpp:32). -/
def octets (s : Bytes) : Obj := .cont (Cont.assignContent stringId (Cont.default stringId) s)

/-- `Enumerated(EnumeratedType)` (Enumerated.hpp:17). -/
def enumerated (v : Int) : Exec Bytes := do
  let d ← Enumerated.default enumId
  Enumerated.assign enumId d v

/-- `fast_ber::Pokemon::Pokemon p = {…}` (sample/encode/main.cpp:10-13). -/
def Pokemon.object (p : Pokemon) : Exec Obj := do
  let t ← enumerated p.type
  let w ← Integer.ofInt intId p.weight
  .ok (.struct [octets p.name, octets p.category, .raw t, octets p.ability, octets p.weakness, .raw w])

/-- The `push_back`s (sample/encode/main.cpp:14-15). -/
def objects : List Pokemon → Exec (List Obj)
  | [] => .ok []
  | p :: ps => do
    let o ← p.object
    let os ← objects ps
    .ok (o :: os)

/-- `team` (sample/encode/main.cpp:9-15). -/
def Team.object (t : Team) : Exec Obj := do
  let os ← objects t.members
  .ok (.struct [octets t.name, .list os])

/-- `main` of sample/encode (sample/encode/main.cpp:7-34): the contents of the file, none if the program ends with -1. -/
def encodeMain (T : Ty) (team : Team) : Exec (Option Bytes) := do
  let o ← team.object
  let buffer := List.replicate (T.encodedLength o) 0
  let r ← T.encode o buffer
  if !r.1.success then .ok none
  else if r.1.length ≤ r.2.length then .ok (some (r.2.take r.1.length))
  else .ub

/-- `member.name` and so on, as printed (sample/decode/main.cpp:37-42). -/
def readPokemon : Obj → Exec Pokemon
  | .struct [.cont name, .cont category, .raw type, .cont ability, .cont weakness, .raw weight] => do
    let n ← name.content
    let c ← category.content
    let t ← Enumerated.value enumId 32 type
    let a ← ability.content
    let w ← weakness.content
    let g ← Integer.value intId weight
    .ok ⟨n, c, t, a, w, g⟩
  | _ => .ub

/-- The loop over the members (sample/decode/main.cpp:35-44). -/
def readMembers : List Obj → Exec (List Pokemon)
  | [] => .ok []
  | o :: os => do
    let p ← readPokemon o
    let ps ← readMembers os
    .ok (p :: ps)

/-- What is printed (sample/decode/main.cpp:34-44). -/
def readTeam : Obj → Exec Team
  | .struct [.cont name, .list os] => do
    let n ← name.content
    let ps ← readMembers os
    .ok ⟨n, ps⟩
  | _ => .ub

/-- `main` of sample/decode (sample/decode/main.cpp:17-46): the team printed, none if the program ends with -1. -/
def decodeMain (T : Ty) (file : Bytes) : Exec (Option Team) := do
  let o0 ← T.new
  let r ← T.decode o0 file
  if !r.1 then .ok none
  else
    let t ← readTeam r.2
    .ok (some t)

end FastBer.Sample
