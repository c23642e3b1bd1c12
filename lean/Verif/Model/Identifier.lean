import Verif.Model.Resolve
/-!
# Tags of types

Models `src/compiler/Identifier.cpp`, `Identifier` and `TaggingInfo` (CompilerTypes.hpp:597-681) and the
two `check_valid` functions (TypeAsString.cpp:231-264, 288-306).  As in `Model/Resolve.lean`, the number
of nested calls is bounded by a count, and `Res.loop` for every count means that the code recurses without
end.
-/
namespace FastBer.Ast

/-- `Identifier` (CompilerTypes.hpp:597-632): `universal` is the number of the `UniversalTag` the
identifier was made from, 0 (`reserved`) if it was made from a class and a number.  `operator==` compares
all three. -/
structure TagId where
  cls : Cls := .universal
  num : Nat := 0
  universal : Nat := 0
  deriving DecidableEq, Repr

/-- `Identifier(UniversalTag)` (CompilerTypes.hpp:606-609). -/
def TagId.ofUniversal (n : Nat) : TagId := ⟨.universal, n, n⟩

/-- `Identifier(Class, int64_t)` (CompilerTypes.hpp:605). -/
def TagId.ofTag (c : Cls) (n : Nat) : TagId := ⟨c, n, 0⟩

/-- `TaggingInfo` (CompilerTypes.hpp:634-681). -/
structure TagInfo where
  outer : Option TagId
  inner : TagId
  choiceIds : List TagId
  isDefault : Bool
  deriving DecidableEq, Repr

/-- `TaggingInfo::outer_tags` (CompilerTypes.hpp:669-680). -/
def TagInfo.outerTags (i : TagInfo) : List TagId :=
  match i.outer with
  | some o => [o]
  | none => if i.choiceIds.length > 0 then i.choiceIds else [i.inner]

/-- The identifiers `identifier(AnyType)` and `outer_identifiers(AnyType)` list (Identifier.cpp:11-21, 245-258). -/
def anyIds : List TagId := [3, 1, 29, 24, 2, 5, 6, 4, 9, 23, 26].map TagId.ofUniversal

/-- The universal tag each leaf type gets from both `identifier` and `outer_identifiers`
(Identifier.cpp:24-35, 77-214, 259-270, 292-409); `none` for ANY and for the types marked "Not implemented". -/
def Builtin.universalTag : Builtin → Option Nat
  | .any => none
  | .bitString => some 3
  | .boolean => some 1
  | .charString t => some t
  | .date => none
  | .dateTime => none
  | .duration => none
  | .embeddedPDV => some 11
  | .enumerated => some 10
  | .external => some 8
  | .generalizedTime => some 24
  | .instanceOf => some 8
  | .integer => some 2
  | .iri => none
  | .null => some 5
  | .objectDescriptor => some 7
  | .objectIdentifier => some 6
  | .octetString => some 4
  | .real => some 9
  | .relativeIRI => none
  | .relativeOID => some 13
  | .t61String => some 20
  | .time => none
  | .timeOfDay => none
  | .utcTime => some 23

/-- `is_prefixed`.  (CompilerTypes.cpp:283-288) -/
def AType.isPrefixed : AType → Bool
  | .prefixed .. => true
  | _ => false

/-- `Module` and `Type` a reference leads to: `type(resolve(tree, module, defined))` and
`find_module(tree, module, defined)` (Identifier.cpp:226-233, 422-430; ResolveType.cpp:50-71, 113-124, 138-157;
`type`, 274, throws if the assignment is not of a type).  The module found by `find_module`, the first
of that name that has such an assignment, is the one `resolve` found, the first of that name, because
`resolve` throws if that one has no such assignment. -/
def followRef (tree : Tree) (mod : Module) (m : Option Name) (ref : Name) : Res (Module × AType) := do
  let wm ← findModule tree (m.getD mod.name)
  let a ← findAssignment wm ref
  match a.body with
  | .type t => .ok (wm, t)
  | _ => .throw .notAType

/-- `outer_identifiers` (Identifier.cpp:245-440). -/
def outerIds (tree : Tree) : Nat → Module → AType → Res (List TagId)
  | 0, _, _ => .loop
  | fuel + 1, mod, t =>
    match t with
    | .leaf k => .ok (if k = .any then anyIds else (k.universalTag.map TagId.ofUniversal).toList)
    | .choice alts _ =>
      if mod.tagging = .automatic then
        .ok ((List.range alts.length).map fun i => TagId.ofTag .contextSpecific i)
      else do
        let ids ← alts.mapM fun a => outerIds tree fuel mod a.type
        .ok ids.flatten
    | .sequence _ _ => .ok [.ofUniversal 16]
    | .seqOf _ _ _ => .ok [.ofUniversal 16]
    | .set _ _ => .ok [.ofUniversal 17]
    | .setOf _ _ _ => .ok [.ofUniversal 17]
    | .prefixed c n _ _ => .ok [.ofTag c n]
    | .objField _ _ _ => .ok []
    | .defined m ref _ => do
      let (wm, t') ← followRef tree mod m ref
      outerIds tree fuel wm t'

/-- The loop of `identifier(ChoiceType)` that looks for duplicates (Identifier.cpp:63-72). -/
def checkDistinct (seen : List TagId) : List TagId → Res Unit
  | [] => .ok ()
  | i :: is => if seen.contains i then .throw .duplicateIdentifier else checkDistinct (i :: seen) is

/-- The identifier `identifier(ChoiceType)` takes for alternative `i` in a module with automatic tags
(Identifier.cpp:45-52); `ids` are those of `outer_identifiers` for a tagged alternative, of which the first
is taken. -/
def autoId (ids : AType → Res (List TagId)) (i : Nat) (t : AType) : Res TagId :=
  if t.isPrefixed then do
    let l ← ids t
    match l.head? with
    | some x => .ok x
    | none => .ub
  else .ok (.ofTag .contextSpecific i)

/-- The loop around it (Identifier.cpp:43). -/
def autoChoiceIds (ids : AType → Res (List TagId)) : Nat → List Named → Res (List TagId)
  | _, [] => .ok []
  | i, a :: as => do
    let id ← autoId ids i a.type
    let rest ← autoChoiceIds ids (i + 1) as
    .ok (id :: rest)

/-- `info.choice_ids` of a CHOICE (Identifier.cpp:41-61). -/
def choiceIds (ids : AType → Res (List TagId)) (mod : Module) (alts : List Named) : Res (List TagId) :=
  if mod.tagging = .automatic then autoChoiceIds ids 0 alts
  else do
    let l ← alts.mapM fun a => ids a.type
    .ok l.flatten

/-- Is the tag explicit (Identifier.cpp:174-188)? -/
def isExplicit (mod : Module) : TagMode → Bool
  | .explicit_ => true
  | .implicit => false
  | .automatic => mod.tagging = .explicit_ || mod.tagging = .automatic

/-- `identifier` of a leaf type (Identifier.cpp:6-35, 77-150, 200-214). -/
def leafInfo (k : Builtin) : TagInfo :=
  if k = .any then ⟨none, {}, anyIds, true⟩
  else match k.universalTag with
    | some n => ⟨none, .ofUniversal n, [], true⟩
    | none => ⟨none, {}, [], k = .relativeIRI⟩

/-- `identifier` (Identifier.cpp:6-243). -/
def identifier (tree : Tree) : Nat → Module → AType → Res TagInfo
  | 0, _, _ => .loop
  | fuel + 1, mod, t =>
    match t with
    | .leaf k => .ok (leafInfo k)
    | .choice alts _ => do
      let ids ← choiceIds (outerIds tree fuel mod) mod alts
      let info : TagInfo := ⟨none, {}, ids, true⟩
      checkDistinct [] info.outerTags
      .ok info
    | .sequence _ _ => .ok ⟨none, .ofUniversal 16, [], true⟩
    | .seqOf _ _ _ => .ok ⟨none, .ofUniversal 16, [], true⟩
    | .set _ _ => .ok ⟨none, .ofUniversal 17, [], true⟩
    | .setOf _ _ _ => .ok ⟨none, .ofUniversal 17, [], true⟩
    | .prefixed c n k t' => do
      let child ← identifier tree fuel mod t'
      if isExplicit mod k || child.outer.isSome then
        .ok ⟨some (.ofTag c n), child.inner, [], false⟩
      else .ok ⟨none, .ofTag c n, [], false⟩
    | .objField _ _ _ => .ok ⟨none, {}, [], false⟩
    | .defined m ref _ => do
      let (wm, t') ← followRef tree mod m ref
      identifier tree fuel wm t'

/-- The loop of `check_valid(SequenceType)` (TypeAsString.cpp:237-262): `prev` is
`previous_optional_ids`, empty unless the component before is OPTIONAL or has a DEFAULT (in which case
`previous_optional_type` is set). -/
def checkSeqFrom (ids : AType → Res TagInfo) (prev : List TagId) : List Comp → Res Unit
  | [] => .ok ()
  | c :: cs =>
    if c.optional || c.default.isSome then do
      let i ← ids c.type
      match i.outerTags with
      | [] => .ub
      | first :: _ =>
        if prev.contains first then .throw .duplicateIdentifier else checkSeqFrom ids i.outerTags cs
    else checkSeqFrom ids [] cs

/-- `check_valid(SequenceType)` (TypeAsString.cpp:231-264). -/
def checkSequence (tree : Tree) (fuel : Nat) (mod : Module) (cs : List Comp) : Res Unit :=
  if mod.tagging = .automatic then .ok () else checkSeqFrom (identifier tree fuel mod) [] cs

/-- The loop of `check_valid(SetType)` (TypeAsString.cpp:292-304): `seen` is the set `ids`. -/
def checkSetFrom (ids : AType → Res TagInfo) (seen : List TagId) : List Comp → Res Unit
  | [] => .ok ()
  | c :: cs => do
    let i ← ids c.type
    checkDistinct seen i.outerTags
    checkSetFrom ids (i.outerTags.reverse ++ seen) cs

/-- `check_valid(SetType)` (TypeAsString.cpp:288-306). -/
def checkSet (tree : Tree) (fuel : Nat) (mod : Module) (cs : List Comp) : Res Unit :=
  if mod.tagging = .automatic then .ok () else checkSetFrom (identifier tree fuel mod) [] cs

end FastBer.Ast
