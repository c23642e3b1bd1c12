import Verif.Model.Resolve
/-!
# Splitting nested structures

Models `find_nested_structs` and `split_nested_structures` (ReorderAssignments.cpp:356-473, 535-558): a SET, SEQUENCE, ENUMERATED or
CHOICE directly after OF or after a tag gets an assignment of its own.  The global `unnamed_definition_num` is passed along.
-/
namespace FastBer.Ast

/-- The name a split off type gets, before the number (ReorderAssignments.cpp:380, 386, 392, 398; 411-431; 451-471). -/
def unnamedPrefix : AType → Option String
  | .set _ _ => some "UnnamedSet"
  | .sequence _ _ => some "UnnamedSequence"
  | .leaf .enumerated => some "UnnamedEnum"
  | .choice _ _ => some "UnnamedChoice"
  | _ => none

/-- What the code does with `inner_type` after the recursive call (ReorderAssignments.cpp:378-402, 409-433, 449-473): `ns` is
`nested_structs`, `k` the counter. -/
def splitInner (own : Name) : AType × List (Name × AType) × Nat → AType × List (Name × AType) × Nat
  | (t, ns, k) =>
    match unnamedPrefix t with
    | some p => (.defined (some own) (p ++ toString k) [], ns ++ [(p ++ toString k, t)], k + 1)
    | none => (t, ns, k)

mutual
/-- `find_nested_structs` (ReorderAssignments.cpp:358-474): the changed type, the structures pushed, the counter. -/
def findNested (own : Name) : AType → Nat → AType × List (Name × AType) × Nat
  | .leaf b, k => (.leaf b, [], k)
  | .objField m c fs, k => (.objField m c fs, [], k)
  | .defined m ref ps, k => (.defined m ref ps, [], k)
  | .choice alts s, k =>
    let r := findNestedAlts own alts k
    (.choice r.1 s, r.2)
  | .sequence cs e, k =>
    let r := findNestedComps own cs k
    (.sequence r.1 e, r.2)
  | .set cs e, k =>
    let r := findNestedComps own cs k
    (.set r.1 e, r.2)
  | .seqOf n t s, k =>
    let r := splitInner own (findNested own t k)
    (.seqOf n r.1 s, r.2)
  | .setOf n t s, k =>
    let r := splitInner own (findNested own t k)
    (.setOf n r.1 s, r.2)
  | .prefixed c n m t, k =>
    let r := splitInner own (findNested own t k)
    (.prefixed c n m r.1, r.2)
/-- The loop over the alternatives (ReorderAssignments.cpp:438-442). -/
def findNestedAlts (own : Name) : List Named → Nat → List Named × List (Name × AType) × Nat
  | [], k => ([], [], k)
  | .mk n t :: as, k =>
    let r := findNested own t k
    let q := findNestedAlts own as r.2.2
    (.mk n r.1 :: q.1, r.2.1 ++ q.2.1, q.2.2)
/-- The loops over the components (ReorderAssignments.cpp:362-365, 369-372). -/
def findNestedComps (own : Name) : List Comp → Nat → List Comp × List (Name × AType) × Nat
  | [], k => ([], [], k)
  | .mk n t o d co s :: cs, k =>
    let r := findNested own t k
    let q := findNestedComps own cs r.2.2
    (.mk n r.1 o d co s :: q.1, r.2.1 ++ q.2.1, q.2.2)
end

/-- One assignment of `split_nested_structures` (ReorderAssignments.cpp:540-554): what is appended, and the counter. -/
def splitAssignment (own : Name) (a : Assignment) (k : Nat) : List Assignment × Nat :=
  match a.body with
  | .type t =>
    let r := findNested own t k
    (r.2.1.reverse.map (fun p => ⟨p.1, .type p.2, []⟩) ++ [{ a with body := .type r.1 }], r.2.2)
  | _ => ([a], k)

/-- The loop of `split_nested_structures` (ReorderAssignments.cpp:540). -/
def splitAssignments (own : Name) : List Assignment → Nat → List Assignment × Nat
  | [], k => ([], k)
  | a :: as, k =>
    let r := splitAssignment own a k
    let q := splitAssignments own as r.2
    (r.1 ++ q.1, q.2)

/-- The loop over the modules (CompilerMain.cpp:267-273), only what concerns `split_nested_structures`. -/
def splitModules : List Module → Nat → List Module × Nat
  | [], k => ([], k)
  | m :: ms, k =>
    let r := splitAssignments m.name m.assignments k
    let q := splitModules ms r.2
    ({ m with assignments := r.1 } :: q.1, q.2)

end FastBer.Ast
