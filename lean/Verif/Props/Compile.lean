import Verif.Props.Emit
import Verif.Proofs.RunModules
import Verif.Proofs.CheckCompile
/-!
# C79: the output of the compiler is valid C++

`generate` writes the C++ declarations for a tree and gives them their C++ meaning, or fails if they have none: a name that is not declared (yet),
or declared twice in a scope, functions that do not belong to a class, a template that is not in the library, ...
-/
namespace FastBer.Props
open FastBer.Ast FastBer.Ast.Spec FastBer.Spec

/-- C79 (`_partial`): the declarations written for a tree compile, and every type assigned in the tree has a C++ type, if the tree is `Supported` and `Legal`, the names made up for C++
types are different in each scope (`Compilable`), and C++ takes the DEFAULT values.
Missing, because it is false: see `C79_violated_*`.  Recursive types: `C79_compiles_recursive_partial`. -/
theorem C79_compiles_partial {lib : Lib} {tree : Tree} (hS : Supported tree) (hL : Legal tree) (hC : Compilable tree) (hD : DefaultsTaken lib tree) :
    ∃ fuel, ∀ f ≥ fuel, ∃ env, generate lib f tree = .ok env ∧
      ∀ mod ∈ tree.modules, ∀ a ∈ mod.assignments, ∀ t, a.body = .type t → ∃ T, env.typeOf mod.name a.name = some T := by
  obtain ⟨f0, h⟩ := generate_total hS hL hC hD
  refine ⟨f0, fun f hf => ?_⟩
  obtain ⟨env, he⟩ := h f hf
  exact ⟨env, he, fun mod hm a ha t hb => generate_exists hS he hm ha hb⟩

/-- Hence C76-C78 hold of all these schemas. -/
theorem C79_compiled {lib : Lib} {tree : Tree} (hS : Supported tree) (hL : Legal tree) (hC : Compilable tree) (hD : DefaultsTaken lib tree)
    (hd : ∀ T v d, lib.default T v = some d → T.Holds d) : ∃ env, Compiled lib tree env := by
  obtain ⟨f, h⟩ := C79_compiles_partial hS hL hC hD
  obtain ⟨env, he, _⟩ := h f (Nat.le_refl _)
  exact ⟨env, hS, hL, hd, f, he⟩

/-- The values `demoLib` takes. -/
def demoDefault : Builtin → FastBer.Ast.Value → Bool
  | .integer, .int 1 => true
  | _, _ => false

theorem demoLib_takes {tree : Tree} {fuel : Nat} (h : Check.defaultsTaken fuel tree demoDefault = true) : DefaultsTaken demoLib tree := by
  refine Check.defaultsTaken_sound h ?_
  intro k v hk l i hl
  unfold demoDefault at hk
  split at hk
  · rcases hl with hl | ⟨hl, _⟩
    · cases hl; rfl
    · cases hl
  · cases hk

/-- The schema of `Props/Emit.lean` meets the conditions. -/
example : Compilable shopTree := Check.compilable_sound (fuel := 20) (by decide +kernel)
example : DefaultsTaken demoLib shopTree := demoLib_takes (fuel := 20) (by decide +kernel)

/-- Structs within structs, with components that have the names of assigned types and of the type around them; lists of lists; enumerations that are
assigned, inside lists, and of another module.
```
Base DEFINITIONS EXPLICIT TAGS ::= BEGIN
Color ::= ENUMERATED {…}
Colors ::= SEQUENCE OF Color
Grid ::= SEQUENCE OF SET OF ENUMERATED {…}
END
Paint DEFINITIONS IMPLICIT TAGS ::= BEGIN
Color ::= Base.Color
Wall ::= SEQUENCE {
  wall [0] INTEGER,
  color [1] SEQUENCE { color_ Base.Color, wall [0] CHOICE { color [0] NULL, walls [1] SEQUENCE OF Base.Color } },
  size [2] SET { size [0] INTEGER DEFAULT 1, color [1] Base.Color OPTIONAL } OPTIONAL }
House ::= SEQUENCE { list SEQUENCE OF Wall }
END
``` -/
def paintTree : Tree := ⟨[
  ⟨"Base", .explicit_, [], [
    ⟨"Color", .type (.leaf .enumerated), []⟩,
    ⟨"Colors", .type (.seqOf none (.defined none "Color" []) .dynamic), []⟩,
    ⟨"Grid", .type (.seqOf none (.setOf none (.leaf .enumerated) .dynamic) .dynamic), []⟩]⟩,
  ⟨"Paint", .implicit, [], [
    ⟨"Color", .type (.defined (some "Base") "Color" []), []⟩,
    ⟨"Wall", .type (.sequence [
      .mk "wall" (.prefixed .contextSpecific 0 .automatic (.leaf .integer)) false none none .static_,
      .mk "color" (.prefixed .contextSpecific 1 .automatic (.sequence [
        .mk "color_" (.defined (some "Base") "Color" []) false none none .static_,
        .mk "wall" (.prefixed .contextSpecific 0 .automatic (.choice [
          .mk "color" (.prefixed .contextSpecific 0 .automatic (.leaf .null)),
          .mk "walls" (.prefixed .contextSpecific 1 .automatic (.seqOf none (.defined (some "Base") "Color" []) .dynamic))] .static_))
          false none none .static_] false)) false none none .static_,
      .mk "size" (.prefixed .contextSpecific 2 .automatic (.set [
        .mk "size" (.prefixed .contextSpecific 0 .automatic (.leaf .integer)) false (some (.int 1)) none .static_,
        .mk "color" (.prefixed .contextSpecific 1 .automatic (.defined (some "Base") "Color" [])) true none none .static_] false))
        true none none .static_] false), []⟩,
    ⟨"House", .type (.sequence [.mk "list" (.seqOf none (.defined none "Wall" []) .dynamic) false none none .static_] false), []⟩]⟩]⟩

example : ∃ env, Compiled demoLib paintTree env :=
  C79_compiled (Check.supported_sound (fuel := 20) (by decide +kernel)) (Check.legal_sound (fuel := 20) (by decide +kernel))
    (Check.compilable_sound (fuel := 20) (by decide +kernel)) (demoLib_takes (fuel := 20) (by decide +kernel)) demoLib_defaults

end FastBer.Props
