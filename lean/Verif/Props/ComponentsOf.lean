import Verif.Proofs.ComponentsOf
/-!
# C62: COMPONENTS OF

`Flattened` (`Spec/ComponentsOf.lean`) says what a list of components with COMPONENTS OF in it stands for.
-/
namespace FastBer.Props
open FastBer.Ast FastBer.Ast.Spec

/-- C62, full statement: a tree that is accepted has every COMPONENTS OF replaced, in place and in order, by the components of
the type it names, and nothing else changed. -/
def C62_statement : Prop := ∀ (tree tree' : Tree), resolveComponentsOf tree = .ok tree' →
  Pointwise (FlattenedModule tree) tree.modules tree'.modules

/-- C62 for the trees the pass can deal with (`Expandable`): no COMPONENTS OF in a SET, and each one in a SEQUENCE names,
directly, a SEQUENCE or SET that comes earlier or has no COMPONENTS OF itself.  The pass ends normally. -/
theorem C62_expands_partial (tree : Tree) (h : Expandable tree) :
    ∃ tree', resolveComponentsOf tree = .ok tree' ∧ Pointwise (FlattenedModule tree) tree.modules tree'.modules := by
  obtain ⟨ms', h1, h2⟩ := expandModules_flat h tree.modules [] [] rfl .nil
  refine ⟨⟨ms'⟩, ?_, h2⟩
  unfold resolveComponentsOf
  rw [h1]; rfl

/-- A component of the given type. -/
private def field (n : Name) (t : AType) : Ast.Comp := .mk n t false none none .static_

/-- `COMPONENTS OF ref` (asn_compiler.yacc, `ComponentType`: the name is empty, the type ANY). -/
private def componentsOf (m : Option Name) (ref : Name) : Ast.Comp :=
  .mk "" (.leaf .any) false none (some (.defined m ref [])) .static_

/-- `B ::= SEQUENCE { x INTEGER, z NULL }`, `A ::= SEQUENCE { COMPONENTS OF B, y BOOLEAN }`,
`C ::= SEQUENCE { w REAL, COMPONENTS OF A }`. -/
def stackedTree : Tree := ⟨[⟨"M", .explicit_, [], [
  ⟨"B", .type (.sequence [field "x" (.leaf .integer), field "z" (.leaf .null)] false), []⟩,
  ⟨"A", .type (.sequence [componentsOf none "B", field "y" (.leaf .boolean)] false), []⟩,
  ⟨"C", .type (.sequence [field "w" (.leaf .real), componentsOf none "A"] false), []⟩]⟩]⟩

/-- The result: `C ::= SEQUENCE { w REAL, x INTEGER, z NULL, y BOOLEAN }`. -/
theorem stackedTree_result : resolveComponentsOf stackedTree = .ok ⟨[⟨"M", .explicit_, [], [
  ⟨"B", .type (.sequence [field "x" (.leaf .integer), field "z" (.leaf .null)] false), []⟩,
  ⟨"A", .type (.sequence [field "x" (.leaf .integer), field "z" (.leaf .null), field "y" (.leaf .boolean)] false), []⟩,
  ⟨"C", .type (.sequence [field "w" (.leaf .real), field "x" (.leaf .integer), field "z" (.leaf .null),
    field "y" (.leaf .boolean)] false), []⟩]⟩]⟩ := rfl

/-- The conditions of `C62_expands_partial` are met by `stackedTree`. -/
example : Expandable stackedTree where
  modules := by decide
  assignments := by decide
  sets := by
    intro m hm a ha cs e h
    simp only [stackedTree, List.mem_singleton] at hm
    subst hm
    simp only [List.mem_cons, List.not_mem_nil, or_false] at ha
    rcases ha with rfl | rfl | rfl <;> cases h
  references := by
    intro ms₁ m ms₂ hms as₁ a as₂ has cs e hb c hc t ht
    cases ms₁ with
    | cons m' ms₁ => cases ms₁ <;> simp [stackedTree] at hms
    | nil =>
      simp only [stackedTree, List.nil_append, List.cons.injEq] at hms
      obtain ⟨rfl, rfl⟩ := hms
      rcases as₁ with _ | ⟨a1, _ | ⟨a2, _ | ⟨a3, as₁⟩⟩⟩
      · simp only [List.nil_append, List.cons.injEq] at has
        obtain ⟨rfl, -⟩ := has
        cases hb
        simp only [List.mem_cons, List.not_mem_nil, or_false] at hc
        rcases hc with rfl | rfl <;> cases ht
      · simp only [List.cons_append, List.nil_append, List.cons.injEq] at has
        obtain ⟨rfl, rfl, -⟩ := has
        cases hb
        simp only [List.mem_cons, List.not_mem_nil, or_false] at hc
        rcases hc with rfl | rfl <;> cases ht
        exact ⟨none, "B", [], _, _, rfl, rfl, rfl, .inr (.inr ⟨rfl, by simp⟩)⟩
      · simp only [List.cons_append, List.nil_append, List.cons.injEq] at has
        obtain ⟨rfl, rfl, rfl, -⟩ := has
        cases hb
        simp only [List.mem_cons, List.not_mem_nil, or_false] at hc
        rcases hc with rfl | rfl <;> cases ht
        exact ⟨none, "A", [], _, _, rfl, rfl, rfl, .inr (.inr ⟨rfl, by simp⟩)⟩
      · have := congrArg List.length has
        simp at this

/-- `A ::= SEQUENCE { COMPONENTS OF B }`, `B ::= SEQUENCE { COMPONENTS OF C }`, `C ::= SEQUENCE { x INTEGER }`. -/
def backwardsTree : Tree := ⟨[⟨"M", .explicit_, [], [
  ⟨"A", .type (.sequence [componentsOf none "B"] false), []⟩,
  ⟨"B", .type (.sequence [componentsOf none "C"] false), []⟩,
  ⟨"C", .type (.sequence [field "x" (.leaf .integer)] false), []⟩]⟩]⟩

/-- C62 is false: `A` should be `SEQUENCE { x INTEGER }` but is accepted as the empty SEQUENCE, since `B` was not dealt with
before `A`. -/
theorem C62_violated : ¬ C62_statement ∧ resolveComponentsOf backwardsTree = .ok ⟨[⟨"M", .explicit_, [], [
    ⟨"A", .type (.sequence [] false), []⟩,
    ⟨"B", .type (.sequence [field "x" (.leaf .integer)] false), []⟩,
    ⟨"C", .type (.sequence [field "x" (.leaf .integer)] false), []⟩]⟩]⟩ ∧
    Flattened backwardsTree "M" [componentsOf none "B"] [field "x" (.leaf .integer)] := by
  have hr : resolveComponentsOf backwardsTree = .ok ⟨[⟨"M", .explicit_, [], [
    ⟨"A", .type (.sequence [] false), []⟩,
    ⟨"B", .type (.sequence [field "x" (.leaf .integer)] false), []⟩,
    ⟨"C", .type (.sequence [field "x" (.leaf .integer)] false), []⟩]⟩]⟩ := rfl
  refine ⟨fun h => ?_, hr, ?_⟩
  · have h1 := h _ _ hr
    cases h1 with
    | cons h1 _ =>
      obtain ⟨-, -, -, h1⟩ := h1
      cases h1 with
      | cons h1 _ =>
        cases h1 with
        | sequence h =>
          obtain ⟨mod', ds, ds', cs', k1, k2, -, k4⟩ := flattened_cons_inv h (t := .defined none "B" []) rfl
          obtain ⟨rfl, rfl⟩ := collectionType_inv (m := none) (mod := "M") rfl k1
          obtain ⟨rfl, -⟩ := List.append_eq_nil_iff.1 k4.symm
          obtain ⟨mod', ds, ds', cs', k1, k2, -, k4⟩ := flattened_cons_inv k2 (t := .defined none "C" []) rfl
          obtain ⟨rfl, rfl⟩ := collectionType_inv (m := none) (mod := "M") rfl k1
          obtain ⟨rfl, -⟩ := List.append_eq_nil_iff.1 k4.symm
          exact (fun h => by generalize hx : ([] : List Ast.Comp) = out at h; cases h with
            | component => cases hx
            | componentsOf h => cases h) k2
  · refine .componentsOf (ds' := [field "x" (.leaf .integer)]) (cs' := []) (mod' := "M") rfl
      (collectionType_ref (m := none) (b := .type (.sequence [componentsOf none "C"] false)) rfl rfl) ?_ .nil
    exact .componentsOf (ds' := [field "x" (.leaf .integer)]) (cs' := []) (mod' := "M") rfl
      (collectionType_ref (m := none) (b := .type (.sequence [field "x" (.leaf .integer)] false)) rfl rfl) (.component rfl .nil) .nil

/-- Further ways in which C62 is false.

* COMPONENTS OF in a SET is left as it is: the SET keeps a component with an empty name.
* A reference that leads to the SEQUENCE through another reference is dropped silently.
* A type that is no SEQUENCE or SET at all is accepted and dropped. -/
theorem C62_lost_violated :
    resolveComponentsOf ⟨[⟨"M", .explicit_, [], [⟨"A", .type (.set [componentsOf none "B"] false), []⟩,
      ⟨"B", .type (.set [field "x" (.leaf .integer)] false), []⟩]⟩]⟩ =
    .ok ⟨[⟨"M", .explicit_, [], [⟨"A", .type (.set [componentsOf none "B"] false), []⟩,
      ⟨"B", .type (.set [field "x" (.leaf .integer)] false), []⟩]⟩]⟩ ∧
    resolveComponentsOf ⟨[⟨"M", .explicit_, [], [⟨"C", .type (.sequence [field "x" (.leaf .integer)] false), []⟩,
      ⟨"B", .type (.defined none "C" []), []⟩, ⟨"A", .type (.sequence [componentsOf none "B"] false), []⟩]⟩]⟩ =
    .ok ⟨[⟨"M", .explicit_, [], [⟨"C", .type (.sequence [field "x" (.leaf .integer)] false), []⟩,
      ⟨"B", .type (.defined none "C" []), []⟩, ⟨"A", .type (.sequence [] false), []⟩]⟩]⟩ ∧
    resolveComponentsOf ⟨[⟨"M", .explicit_, [], [⟨"B", .type (.leaf .integer), []⟩,
      ⟨"A", .type (.sequence [componentsOf none "B"] false), []⟩]⟩]⟩ =
    .ok ⟨[⟨"M", .explicit_, [], [⟨"B", .type (.leaf .integer), []⟩, ⟨"A", .type (.sequence [] false), []⟩]⟩]⟩ :=
  ⟨rfl, rfl, rfl⟩

/-- A SEQUENCE that contains its own components, or a literal SEQUENCE after COMPONENTS OF, is undefined behaviour of the compiler
instead of an error message. -/
theorem C62_crash_violated :
    resolveComponentsOf ⟨[⟨"M", .explicit_, [], [⟨"A", .type (.sequence [field "x" (.leaf .null), componentsOf none "A"] false), []⟩]⟩]⟩ =
      .ub ∧
    resolveComponentsOf ⟨[⟨"M", .explicit_, [], [⟨"A", .type (.sequence
      [.mk "" (.leaf .any) false none (some (.sequence [field "x" (.leaf .null)] false)) .static_] false), []⟩]⟩]⟩ = .ub :=
  ⟨rfl, rfl⟩

/-- `M1`: `T ::= INTEGER`, `S ::= SEQUENCE { x T }`; `M2`: `T ::= BOOLEAN`, `A ::= SEQUENCE { COMPONENTS OF M1.S }`. -/
def scopeTree : Tree := ⟨[
  ⟨"M1", .explicit_, [], [⟨"T", .type (.leaf .integer), []⟩, ⟨"S", .type (.sequence [field "x" (.defined none "T" [])] false), []⟩]⟩,
  ⟨"M2", .explicit_, [], [⟨"T", .type (.leaf .boolean), []⟩, ⟨"A", .type (.sequence [componentsOf (some "M1") "S"] false), []⟩]⟩]⟩

/-- Components taken from another module keep their references as they are written there, so they are read in the wrong module: `x` is
an INTEGER in `M1.S` and a BOOLEAN in `A`. -/
theorem C62_scope_violated : ∃ tree', resolveComponentsOf scopeTree = .ok tree' ∧
    lookup tree' "M2" "A" = some (.type (.sequence [field "x" (.defined none "T" [])] false)) ∧
    StandsFor tree' "M1" "T" "T" (.leaf .integer) "M1" ∧ StandsFor tree' "M2" "T" "T" (.leaf .boolean) "M2" :=
  ⟨_, rfl, rfl, .here rfl (by intro m r h; cases h), .here rfl (by intro m r h; cases h)⟩

end FastBer.Props
