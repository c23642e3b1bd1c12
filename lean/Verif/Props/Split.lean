import Verif.Proofs.Split
import Verif.Model.Depend
/-!
# C75: splitting nested structures

`Unfolds`, `Nests`, `MadeUp` (`Spec/Split.lean`) say what splitting has to preserve and to achieve.
-/
namespace FastBer.Props
open FastBer.Ast FastBer.Ast.Spec

/-- C75: for every module whose names are different from each other and from the names the compiler makes up, whatever the value of
the counter: the names stay different, those of the user in the same order, and nothing but made up names is added; every
definition, with made up names replaced by their definitions, is what it was; and no SET, SEQUENCE, ENUMERATED or CHOICE is left
directly after OF or after a tag. -/
theorem C75_split (own : Name) (as : List Assignment) (k : Nat) (hn : (as.map (·.name)).Nodup) (hu : ∀ a ∈ as, ¬ MadeUp a.name) :
    ((splitAssignments own as k).1.map (·.name)).Nodup ∧
    (as.map (·.name)).Sublist ((splitAssignments own as k).1.map (·.name)) ∧
    (∀ a ∈ (splitAssignments own as k).1, a.name ∈ as.map (·.name) ∨ MadeUp a.name) ∧
    (∀ a ∈ as, ∃ b, definition (splitAssignments own as k).1 a.name = some b ∧
      UnfoldsBody own (definition (splitAssignments own as k).1) b a.body) ∧
    (∀ a ∈ (splitAssignments own as k).1, ∀ t, a.body = .type t → ¬ Somewhere Nests t) := by
  have h := splitAssignments_splits own as k
  obtain ⟨ns, h1, h2⟩ := h.names
  have hnod : ((splitAssignments own as k).1.map (·.name)).Nodup := by
    rw [h2.nodup_iff, List.nodup_append]
    refine ⟨hn, h1.nodup, ?_⟩
    intro a ha b hb hab
    subst hab
    obtain ⟨x, hx, rfl⟩ := List.mem_map.1 ha
    obtain ⟨_, _, hm⟩ := h1.mem hb
    exact hu x hx hm.madeUp
  refine ⟨hnod, h.kept, ?_, ?_, h.flat⟩
  · intro a ha
    have : a.name ∈ as.map (·.name) ++ ns := h2.mem_iff.1 (List.mem_map.2 ⟨a, ha, rfl⟩)
    rcases List.mem_append.1 this with h | h
    · exact .inl h
    · obtain ⟨_, _, hm⟩ := h1.mem h
      exact .inr hm.madeUp
  · intro a ha
    obtain ⟨a', h1, h2, -, h3⟩ := h.unfolds (definition (splitAssignments own as k).1) (fun a ha => definition_of_mem hnod ha) a ha
    exact ⟨a'.body, by rw [← h2]; exact definition_of_mem hnod h1, h3⟩

/-- The pass does this for all modules, each with some value of the counter, and changes nothing but the assignments. -/
theorem C75_modules (ms : List Module) (k : Nat) :
    Pointwise (fun m m' : Module => m'.name = m.name ∧ m'.tagging = m.tagging ∧ m'.imports = m.imports ∧
      ∃ j, k ≤ j ∧ m'.assignments = (splitAssignments m.name m.assignments j).1) ms (splitModules ms k).1 := by
  have le : ∀ {a b : Nat} {l : List Name}, NamesFrom a l b → a ≤ b := by
    intro a b l h
    induction h with
    | nil => exact Nat.le_refl _
    | cons _ _ ih => omega
  have : ∀ j, k ≤ j → Pointwise (fun m m' : Module => m'.name = m.name ∧ m'.tagging = m.tagging ∧ m'.imports = m.imports ∧
      ∃ j, k ≤ j ∧ m'.assignments = (splitAssignments m.name m.assignments j).1) ms (splitModules ms j).1 := by
    induction ms with
    | nil => intro j _; exact .nil
    | cons m ms ih =>
      intro j hj
      refine .cons ⟨rfl, rfl, rfl, j, hj, rfl⟩ (ih _ ?_)
      obtain ⟨ns, h, -⟩ := (splitAssignments_splits m.name m.assignments j).names
      exact Nat.le_trans hj (le h)
  exact this k (Nat.le_refl _)

/-- `A ::= SEQUENCE OF SET { x [1] CHOICE { n NULL } }`. -/
def nestedAssignments : List Assignment := [⟨"A", .type (.seqOf none (.set
  [.mk "x" (.prefixed .contextSpecific 1 .automatic (.choice [.mk "n" (.leaf .null)] .static_)) false none none .static_] false) .static_), []⟩]

/-- The result has three definitions: `UnnamedSet1 ::= SET { x [1] UnnamedChoice0 }`, `UnnamedChoice0 ::= CHOICE { n NULL }` and
`A ::= SEQUENCE OF UnnamedSet1`. -/
theorem nestedAssignments_result : (splitAssignments "M" nestedAssignments 0).1 = [
    ⟨"UnnamedSet1", .type (.set [.mk "x" (.prefixed .contextSpecific 1 .automatic (.defined (some "M") "UnnamedChoice0" []))
      false none none .static_] false), []⟩,
    ⟨"UnnamedChoice0", .type (.choice [.mk "n" (.leaf .null)] .static_), []⟩,
    ⟨"A", .type (.seqOf none (.defined (some "M") "UnnamedSet1" []) .static_), []⟩] := rfl

/-- The conditions of `C75_split` are met by `nestedAssignments`. -/
example : (nestedAssignments.map (·.name)).Nodup ∧ ∀ a ∈ nestedAssignments, ¬ MadeUp a.name := by
  refine ⟨by decide, ?_⟩
  intro a ha
  rw [nestedAssignments, List.mem_singleton] at ha
  subst ha
  have key : ∀ (p : String) (k : Nat), 1 < p.toList.length → "A" ≠ p ++ toString k := by
    intro p k hp h
    have := congrArg (fun s => s.toList.length) h
    simp only [String.toList_append, List.length_append] at this
    have h1 : "A".toList.length = 1 := rfl
    omega
  rintro ⟨k, h | h | h | h⟩ <;> exact key _ k (by decide) h

/-- Without the condition on the names C75 is false: `UnnamedSet0 ::= INTEGER`, `A ::= SET OF SET {}` has two definitions of
`UnnamedSet0` after the pass, and is rejected in the end ("ordering lost definitions"), although it is legal. -/
theorem C75_clash_violated :
    (splitAssignments "M" [⟨"UnnamedSet0", .type (.leaf .integer), []⟩, ⟨"A", .type (.setOf none (.set [] false) .static_), []⟩] 0).1 =
      [⟨"UnnamedSet0", .type (.leaf .integer), []⟩, ⟨"UnnamedSet0", .type (.set [] false), []⟩,
       ⟨"A", .type (.setOf none (.defined (some "M") "UnnamedSet0" []) .static_), []⟩] ∧
    ∀ rf tree, reorderAssignments tree "M" rf [⟨"UnnamedSet0", .type (.leaf .integer), []⟩, ⟨"UnnamedSet0", .type (.set [] false), []⟩,
       ⟨"A", .type (.setOf none (.defined (some "M") "UnnamedSet0" []) .static_), []⟩] = .throw .lostDefinitions := by
  refine ⟨rfl, fun rf tree => rfl⟩

end FastBer.Props
