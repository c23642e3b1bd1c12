import Verif.Props.Compile
import Verif.Props.RecursiveSource
import Verif.Props.Accepts
import Verif.Proofs.ForwardStart
/-!
# C79 for schemas with circular references

As in `Props/Compile.lean`, but the declarations are read with the forward declarations in front of them (`Model/Forward.lean`).
-/
namespace FastBer.Props
open FastBer.Ast FastBer.Ast.Spec FastBer.Spec

/-- C79 (`_partial`), for schemas with circular references: the declarations written for a tree compile, and every type assigned in the tree has a C++ class or simple type, if the tree is
`Supported` and `Legal`, the names made up for C++ types are different in each scope and what is not a class is declared before it is used (`RCompilable`), and C++ takes the DEFAULT values.
Missing, because it is false: see `C79_violated_*`. -/
theorem C79_compiles_recursive_partial {lib : Lib} {tree : Tree} (hS : Supported tree) (hL : Legal tree) (hC : RCompilable tree) (hD : DefaultsTaken lib tree) :
    ∃ fuel, ∀ f ≥ fuel, ∃ env, Fwd.generate lib f tree = .ok env ∧
      ∀ mod ∈ tree.modules, ∀ a ∈ mod.assignments, ∀ t, a.body = .type t → ∃ T, env.typeOf mod.name a.name = some T ∧ T.isRef = false := by
  obtain ⟨f0, h⟩ := Fwd.generate_total hS hL hC hD
  refine ⟨f0, fun f hf => ?_⟩
  obtain ⟨env, he⟩ := h f hf
  exact ⟨env, he, fun mod hm a ha t hb => Fwd.generate_exists hS he hm ha hb⟩

/-- If moreover every assigned type has a value to begin with, all its C++ types can be default constructed; hence C76-C78, C90, C91 and C100 hold of all these schemas. -/
theorem C79_compiled_recursive {lib : Lib} {tree : Tree} (hS : Supported tree) (hL : Legal tree) (hC : RCompilable tree) (hD : DefaultsTaken lib tree)
    (hA : AllStartable tree) (hd : ∀ T v d, lib.default T v = some d → T.Holds d) : ∃ env, RCompiled lib tree env := by
  obtain ⟨f, h⟩ := C79_compiles_recursive_partial hS hL hC hD
  obtain ⟨env, he, _⟩ := h f (Nat.le_refl _)
  exact ⟨env, hS, hL, hd, ⟨f, he⟩, Fwd.program_starts hS hL hd hA he⟩

/-- The circular schema of the repository meets the conditions. -/
theorem cycle_startable : AllStartable cycleTree := Check.allStartable_sound (fuel := 20) (by decide +kernel)
theorem cycle_forward : RCompilable cycleTree := Check.compilableForward_sound (fuel := 20) (by decide +kernel)
example : ∃ env, RCompiled demoLib cycleTree env :=
  C79_compiled_recursive cycle_supported cycle_legal cycle_forward (demoLib_takes (fuel := 20) (by decide +kernel)) cycle_startable demoLib_defaults

/-- It does not meet those of `C79_compiles_partial`. -/
example : ¬ Compilable cycleTree := by
  intro h
  have := h.order [] cycleTree.modules[0] [] rfl [] _ _ rfl _ rfl none "CircularSequence2"
    ⟨[], .inr (.single (.sequence (c := .mk "cs2" (.defined none "CircularSequence2" []) true none none .dynamic) (by simp)))⟩
  simp at this

/-! ## Legal recursive sources for which invalid C++ is written -/

/-- `M ... BEGIN Person ::= SEQUENCE { name INTEGER, kids Kids OPTIONAL } Kids ::= SEQUENCE OF Person END` -/
def laterListSource : Tree := ⟨[⟨"M", .implicit, [], [
  ⟨"Person", .type (.sequence [plainComp "name" (.leaf .integer), .mk "kids" (localRef "Kids") true none none .static_] false), []⟩,
  ⟨"Kids", .type (listOf (localRef "Person")), []⟩]⟩]⟩

/-- The output of the front end. -/
def laterListTree : Tree := ⟨[⟨"M", .implicit, [], [
  ⟨"Person", .type (.sequence [plainComp "name" (.leaf .integer), .mk "kids" (localRef "Kids") true none none .dynamic] false), []⟩,
  ⟨"Kids", .type (.seqOf none (localRef "Person") .dynamic), []⟩]⟩]⟩

theorem laterList_frontEnd (f : Nat) : frontEnd (f + 20) laterListSource = .ok laterListTree := by rfl
theorem laterList_generate (f : Nat) : Fwd.generate demoLib (f + 20) laterListTree = .throw .cpp := by rfl

/-- C79 and C98 are violated: the OPTIONAL component is stored dynamically so that `Person` can be written before `Kids`; but in `Person` the C++ type of `kids` is written as
`SequenceOf<KidsContained>`, and there is no forward declaration of `KidsContained`.  With the two assignments in the other order the code is valid. -/
theorem C98_violated_later_list :
    PlainSource laterListSource ∧ SupportedSource laterListSource ∧ Accepted laterListSource ∧ ∀ f, Fwd.compile demoLib (f + 20) laterListSource = .throw .cpp := by
  refine ⟨Check.plainSource_sound (by decide +kernel), Check.supportedSource_sound (fuel := 20) (by decide +kernel), Check.accepted_sound (fuel := 20) (by decide +kernel), fun f => ?_⟩
  unfold Fwd.compile
  rw [laterList_frontEnd, Res.ok_bind]
  exact laterList_generate f

/-- `M ... BEGIN Expr ::= CHOICE { op [0] Op, not [1] Expr } Op ::= ENUMERATED {…} END` -/
def laterEnumSource : Tree := ⟨[⟨"M", .implicit, [], [
  ⟨"Expr", .type (.choice [.mk "op" (.prefixed .contextSpecific 0 .automatic (localRef "Op")), .mk "not" (.prefixed .contextSpecific 1 .automatic (localRef "Expr"))] .static_), []⟩,
  ⟨"Op", .type (.leaf .enumerated), []⟩]⟩]⟩

/-- The output of the front end. -/
def laterEnumTree : Tree := ⟨[⟨"M", .implicit, [], [
  ⟨"Expr", .type (.choice [.mk "op" (.prefixed .contextSpecific 0 .automatic (localRef "Op")), .mk "not" (.prefixed .contextSpecific 1 .automatic (localRef "Expr"))] .dynamic), []⟩,
  ⟨"Op", .type (.leaf .enumerated), []⟩]⟩]⟩

theorem laterEnum_frontEnd (f : Nat) : frontEnd (f + 20) laterEnumSource = .ok laterEnumTree := by rfl
theorem laterEnum_generate (f : Nat) : Fwd.generate demoLib (f + 20) laterEnumTree = .throw .cpp := by rfl

/-- C79 and C98 are violated: a recursive CHOICE is written before the ENUMERATED assigned after it, with the name `OpValues` of its enumeration, which has no forward declaration. -/
theorem C98_violated_later_enum :
    PlainSource laterEnumSource ∧ SupportedSource laterEnumSource ∧ Accepted laterEnumSource ∧ ∀ f, Fwd.compile demoLib (f + 20) laterEnumSource = .throw .cpp := by
  refine ⟨Check.plainSource_sound (by decide +kernel), Check.supportedSource_sound (fuel := 20) (by decide +kernel), Check.accepted_sound (fuel := 20) (by decide +kernel), fun f => ?_⟩
  unfold Fwd.compile
  rw [laterEnum_frontEnd, Res.ok_bind]
  exact laterEnum_generate f

/-- In the other order the code is valid. -/
example : frontEnd 20 ⟨[⟨"M", .implicit, [], laterListSource.modules[0].assignments.reverse⟩]⟩ = .ok ⟨[⟨"M", .implicit, [], [
    ⟨"Kids", .type (.seqOf none (localRef "Person") .dynamic), []⟩,
    ⟨"Person", .type (.sequence [plainComp "name" (.leaf .integer), .mk "kids" (localRef "Kids") true none none .static_] false), []⟩]⟩]⟩ ∧
  ∃ fuel, ∀ f ≥ fuel, ∃ env, Fwd.generate demoLib f ⟨[⟨"M", .implicit, [], [
    ⟨"Kids", .type (.seqOf none (localRef "Person") .dynamic), []⟩,
    ⟨"Person", .type (.sequence [plainComp "name" (.leaf .integer), .mk "kids" (localRef "Kids") true none none .static_] false), []⟩]⟩]⟩ = .ok env := by
  refine ⟨by rfl, ?_⟩
  exact Fwd.generate_total (Check.supported_sound (fuel := 20) (by decide +kernel)) (Check.legal_sound (fuel := 20) (by decide +kernel))
    (Check.compilableForward_sound (fuel := 20) (by decide +kernel)) (demoLib_takes (fuel := 20) (by decide +kernel))

end FastBer.Props
