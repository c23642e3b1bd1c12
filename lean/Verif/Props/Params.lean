import Verif.Proofs.Params
/-!
# C61: parameterized types

`template`, `argument`, `substitute` and `Expanded` (`Spec/Params.lean`) say what a reference to a parameterized type means.
`parsedFormals`, `parsedActuals`: the lists of parameters the parser makes of what is written.
-/
namespace FastBer.Props
open FastBer.Ast FastBer.Ast.Spec

/-- C61, full statement: the reference `ref {written}` to the template `ref {formals} ::= body` is replaced by the body, every
parameter in it by its argument. -/
def C61_statement : Prop := ∀ (tree : Tree) (mod ref : Name) (formals : List Param) (written : List AType) (body : AType),
  template tree mod ref = some (parsedFormals formals, body) → (formals.map (·.reference)).Nodup → written ≠ [] →
  formals.length = written.length →
  toConcrete tree mod (.defined none ref (parsedActuals written)) = .ok (substitute (argument formals written) body)

/-- The parser keeps the order of the parameters of a template and reverses the arguments of a reference. -/
theorem C61_order (formals : List Param) (written : List AType) :
    parsedFormals formals = formals ∧ parsedActuals written = written.reverse := by
  constructor
  · unfold parsedFormals
    rw [List.foldl_append_eq_append (f := fun p => [p])]
    induction formals with
    | nil => rfl
    | cons p ps ih => simpa using ih
  · induction written with
    | nil => rfl
    | cons a as ih => rw [parsedActuals, ih, List.reverse_cons]

/-- `Pair {A, B} ::= SEQUENCE { a A, b B }`. -/
def pairTree : Tree := ⟨[⟨"M", .explicit_, [], [⟨"Pair", .type (.sequence
  [.mk "a" (.defined none "A" []) false none none .static_, .mk "b" (.defined none "B" []) false none none .static_] false),
  parsedFormals [⟨none, "A"⟩, ⟨none, "B"⟩]⟩]⟩]⟩

/-- C61 is false: the arguments are used in reverse order.  `Pair {INTEGER, BOOLEAN}` becomes
`SEQUENCE { a BOOLEAN, b INTEGER }`. -/
theorem C61_violated : ¬ C61_statement ∧
    toConcrete pairTree "M" (.defined none "Pair" (parsedActuals [.leaf .integer, .leaf .boolean])) =
      .ok (.sequence [.mk "a" (.leaf .boolean) false none none .static_, .mk "b" (.leaf .integer) false none none .static_] false) := by
  have hr : toConcrete pairTree "M" (.defined none "Pair" (parsedActuals [.leaf .integer, .leaf .boolean])) =
      .ok (.sequence [.mk "a" (.leaf .boolean) false none none .static_, .mk "b" (.leaf .integer) false none none .static_] false) := rfl
  refine ⟨fun h => ?_, hr⟩
  have := h pairTree "M" "Pair" [⟨none, "A"⟩, ⟨none, "B"⟩] [.leaf .integer, .leaf .boolean] _ rfl (by decide) (by simp) rfl
  rw [hr] at this
  simp [substitute, substituteComps, argument] at this

/-- C61 for templates with one parameter, whose body has no COMPONENTS OF and no reference with arguments of its own: the
reference is replaced by the body with every occurrence of the parameter, and nothing else, replaced by the argument. -/
theorem C61_one_partial (tree : Tree) (mod ref : Name) (p : Param) (a : AType) (body : AType)
    (ht : template tree mod ref = some (parsedFormals [p], body)) (hc : ¬ Somewhere HasComponentsOf body)
    (hp : ¬ Somewhere Parameterized body) :
    toConcrete tree mod (.defined none ref (parsedActuals [a])) = .ok (substitute (argument [p] [a]) body) := by
  show toConcrete tree mod (.defined none ref [a]) = _
  rw [toConcrete, if_pos (by simp)]
  have ht : template tree ((none : Option Name).getD mod) ref = some ([p], body) := ht
  rw [instantiate_of_template (args := [a]) ht rfl]
  rcases substParams_claim (paramTypes [p] [a]) body with ⟨h, _⟩ | ⟨_, t', h1, h2⟩
  · exact absurd h hp
  · rw [h1, h2 hc, findParam_paramTypes _ _ (by simp)]

/-- C61 for any number of parameters, as the code has it: the arguments in reverse order.  A reference with arguments inside the
body of the template is rejected. -/
theorem C61_reversed_partial (tree : Tree) (mod ref : Name) (formals : List Param) (written : List AType) (body : AType)
    (ht : template tree mod ref = some (parsedFormals formals, body)) (hn : (formals.map (·.reference)).Nodup) (hw : written ≠ [])
    (hl : formals.length = written.length) (hc : ¬ Somewhere HasComponentsOf body) :
    (Somewhere Parameterized body → toConcrete tree mod (.defined none ref (parsedActuals written)) = .throw .other) ∧
    (¬ Somewhere Parameterized body → toConcrete tree mod (.defined none ref (parsedActuals written)) =
      .ok (substitute (argument formals written.reverse) body)) := by
  obtain ⟨h1, h2⟩ := C61_order formals written
  rw [h1] at ht
  rw [h2, toConcrete, if_pos (by rw [List.length_reverse]; exact List.length_pos_iff.2 hw)]
  have ht : template tree ((none : Option Name).getD mod) ref = some (formals, body) := ht
  rw [instantiate_of_template (args := written.reverse) ht (by simpa using hl)]
  rcases substParams_claim (paramTypes formals written.reverse) body with ⟨h, k⟩ | ⟨h, t', k1, k2⟩
  · exact ⟨fun _ => k, fun h' => absurd h h'⟩
  · exact ⟨fun h' => absurd h' h, fun _ => by rw [k1, k2 hc, findParam_paramTypes _ _ hn]⟩

/-- C61 for whole trees (given the argument lists in the tree): where the pass ends normally, every template is gone and
every other assignment is the original one with its references to parameterized types replaced by what they mean.  For
trees without COMPONENTS OF and with different parameter names in each template. -/
theorem C61_tree_partial (tree tree' : Tree) (hg : GoodTemplates tree)
    (hc : ∀ m ∈ tree.modules, ∀ a ∈ m.assignments, a.params = [] → ∀ t, a.body = .type t → ¬ Somewhere HasComponentsOf t)
    (h : resolveParameters tree = .ok tree') : Pointwise (ExpandedModule tree) tree.modules tree'.modules :=
  resolveParameters_ok hg hc h

/-- Without references to parameterized types the pass removes the templates and changes nothing else. -/
theorem C61_unused_partial (tree : Tree) (hg : GoodTemplates tree)
    (hc : ∀ m ∈ tree.modules, ∀ a ∈ m.assignments, a.params = [] → ∀ t, a.body = .type t → ¬ Somewhere Parameterized t) :
    resolveParameters tree = .ok ⟨tree.modules.map fun m => { m with assignments := m.assignments.filter fun a => a.params.isEmpty }⟩ :=
  resolveParameters_unused hg hc

/-- `Wrapped {T} ::= SEQUENCE { COMPONENTS OF T }`: the parameter stays. -/
def wrapTree : Tree := ⟨[⟨"M", .explicit_, [], [⟨"Wrapped", .type (.sequence
  [.mk "" (.leaf .any) false none (some (.defined none "T" [])) .static_] false), [⟨none, "T"⟩]⟩]⟩]⟩

/-- C61 is false for COMPONENTS OF: a parameter there is not replaced. -/
theorem C61_components_violated :
    toConcrete wrapTree "M" (.defined none "Wrapped" (parsedActuals [.defined none "S" []])) =
      .ok (.sequence [.mk "" (.leaf .any) false none (some (.defined none "T" [])) .static_] false) ∧
    substitute (argument [⟨none, "T"⟩] [.defined none "S" []]) (.sequence [.mk "" (.leaf .any) false none (some (.defined none "T" [])) .static_] false) =
      .sequence [.mk "" (.leaf .any) false none (some (.defined none "S" [])) .static_] false := by
  refine ⟨rfl, ?_⟩
  simp [substitute, substituteComps, substituteOpt, argument]

/-- `Box {T} ::= SEQUENCE { v T }`, `A ::= Box {Box {INTEGER}}`. -/
def boxTree : Tree := ⟨[⟨"M", .explicit_, [], [⟨"Box", .type (.sequence [.mk "v" (.defined none "T" []) false none none .static_] false), [⟨none, "T"⟩]⟩,
  ⟨"A", .type (.defined none "Box" [.defined none "Box" [.leaf .integer]]), []⟩]⟩]⟩

/-- A reference with arguments inside an argument is not replaced: `A` is left with a reference to the removed template. -/
theorem C61_argument_violated : resolveParameters boxTree = .ok ⟨[⟨"M", .explicit_, [], [⟨"A", .type (.sequence
    [.mk "v" (.defined none "Box" [.leaf .integer]) false none none .static_] false), []⟩]⟩]⟩ := rfl

/-! A tree that meets the conditions of `C61_tree_partial`: `Box {T} ::= SEQUENCE { v T }`, `A ::= SET OF Box {INTEGER}`. -/
def boxOnce : Tree := ⟨[⟨"M", .explicit_, [], [⟨"Box", .type (.sequence [.mk "v" (.defined none "T" []) false none none .static_] false), [⟨none, "T"⟩]⟩,
  ⟨"A", .type (.setOf none (.defined none "Box" [.leaf .integer]) .static_), []⟩]⟩]⟩

theorem boxOnce_result : resolveParameters boxOnce = .ok ⟨[⟨"M", .explicit_, [], [⟨"A", .type (.setOf none (.sequence
    [.mk "v" (.leaf .integer) false none none .static_] false) .static_), []⟩]⟩]⟩ := rfl

example : GoodTemplates boxOnce ∧
    (∀ m ∈ boxOnce.modules, ∀ a ∈ m.assignments, a.params = [] → ∀ t, a.body = .type t → ¬ Somewhere HasComponentsOf t) := by
  have leafy : ∀ m n ps, ¬ Somewhere HasComponentsOf (.defined m n ps) := fun m n ps =>
    not_somewhere_leaf (fun c h => by cases h) (by rintro ⟨cs, e, h | h, _⟩ <;> cases h)
  constructor
  · intro mod ref ps body h hps
    unfold template at h
    simp only [boxOnce] at h
    rw [List.find?_cons] at h
    split at h
    · rw [Option.bind_some, List.find?_cons] at h
      split at h
      · cases h
        refine ⟨by decide, ?_⟩
        rw [somewhere_iff]
        rintro (⟨cs, e, h | h, c, hc, hn⟩ | ⟨c, h, hs⟩)
        · cases h
          rw [List.mem_singleton] at hc
          subst hc; exact hn rfl
        · cases h
        · cases h with
          | sequence hc => rw [List.mem_singleton] at hc; subst hc; exact leafy _ _ _ hs
      · rw [List.find?_cons] at h
        split at h
        · cases h; exact absurd rfl hps
        · cases h
    · cases h
  · intro m hm a ha hp t ht
    simp only [boxOnce, List.mem_singleton] at hm
    subst hm
    simp only [List.mem_cons, List.not_mem_nil, or_false] at ha
    rcases ha with rfl | rfl
    · cases hp
    · cases ht
      rw [somewhere_iff]
      rintro (⟨cs, e, h | h, _⟩ | ⟨c, h, hs⟩)
      · cases h
      · cases h
      · cases h; exact leafy _ _ _ hs

end FastBer.Props
