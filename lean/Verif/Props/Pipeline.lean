import Verif.Proofs.Pipeline
import Verif.Proofs.SourceCheck
/-!
# C81: the passes of the compiler preserve the meaning of a schema

`frontEnd` is all that happens between parsing and writing the output.  `qualify src` (`Spec/Source.lean`) is the source with every reference
written with the module it leads to.
-/
namespace FastBer.Props
open FastBer.Ast FastBer.Ast.Spec FastBer.Spec

/-- C81: if the passes accept a schema (without parameterized types, COMPONENTS OF and information objects: see C61, C62, C80 for those), then every assigned type is there
afterwards, under the same name in a module of the same name, has the same values, and the same octets are encodings of them - under whatever rules for lengths and
contents of simple types; the names of the modules are the same, and no name is added to a module but those it imports and made up ones. -/
theorem C81_meaning_partial {src out : Tree} {rf : Nat} (hp : PlainSource src) (hf : frontEnd rf src = .ok out) :
    (∀ m ∈ src.modules, ∃ m' ∈ out.modules, m'.name = m.name ∧ m'.tagging = m.tagging ∧
      (∀ a ∈ m.assignments, ∀ t, a.body = .type t → ∃ a' ∈ m'.assignments, a'.name = a.name ∧ ∃ t', a'.body = .type t' ∧
        (∀ P x, Spec.Value P (qualify src) (qualifyModule src m) (qualifyType src m.name t) x ↔ Spec.Value P out m' t' x) ∧
        (∀ r x e, Encodes r (qualify src) (qualifyModule src m) (qualifyType src m.name t) x e ↔ Encodes r out m' t' x e)) ∧
      ∀ a' ∈ m'.assignments, (∃ a ∈ m.assignments, a'.name = a.name) ∨ (∃ i ∈ m.imports, a'.name ∈ i.types) ∨ MadeUp a'.name) ∧
    ∀ m' ∈ out.modules, ∃ m ∈ src.modules, m'.name = m.name := by
  obtain ⟨S, hS, hO⟩ := frontEnd_plain hp hf
  refine ⟨fun m hm => ?_, fun m' hm' => ?_⟩
  · obtain ⟨m2, hm2, hs⟩ := hS.split m hm
    obtain ⟨m3, hm3, as, rfl, hperm⟩ := hO.stored m2 hm2
    obtain ⟨-, j, rfl⟩ := id hs
    refine ⟨_, hm3, rfl, rfl, fun a ha t hb => ?_, fun a' ha' => ?_⟩
    · obtain ⟨m2', u, h1, h2, h3, h4⟩ := hS.assigned hm ha hb (q := none) (m0 := { m with assignments := (splitAssignments m.name (splitImports m.assignments m.imports) j).1 }) rfl
      obtain ⟨w', u', h5, h6⟩ := hO.corr.fwd (m2 := { m with assignments := as }) ⟨rfl, rfl, rfl⟩ h3
      obtain ⟨h7, h8, a', h9, h10, h11⟩ := target_mem h5
      have : w' = { m with assignments := as } := by
        have e1 := find_key (key := Module.name) hO.modules h7 h8
        have e2 := find_key (key := Module.name) (n := m.name) hO.modules hm3 rfl
        rw [show (none : Option Name).getD ({ m with assignments := as } : Module).name = m.name from rfl] at e1
        exact Option.some.inj (e1.symm.trans e2)
      subst this
      refine ⟨a', h9, h10, u', h11, fun P x => ?_, fun r x e => ?_⟩
      · exact (h4.value_iff hS.corr P x).trans (h6.value_iff hO.corr P x)
      · exact (h4.encodes_iff hS.corr r x e).trans (h6.encodes_iff hO.corr r x e)
    · have hmem : forgetA a' ∈ (splitAssignments m.name (splitImports m.assignments m.imports) j).1.map forgetA :=
        hperm.mem_iff.1 (List.mem_map.2 ⟨a', ha', rfl⟩)
      obtain ⟨b, hb, he⟩ := List.mem_map.1 hmem
      have hn : b.name = a'.name := by rw [← forgetA_name, he, forgetA_name]
      obtain ⟨ns, h1, h2⟩ := (splitAssignments_splits m.name (splitImports m.assignments m.imports) j).names
      have h3 : b.name ∈ (splitImports m.assignments m.imports).map (·.name) ++ ns := h2.mem_iff.1 (List.mem_map.2 ⟨b, hb, rfl⟩)
      rw [← hn]
      rcases List.mem_append.1 h3 with h3 | h3
      · obtain ⟨c, hc, hcn⟩ := List.mem_map.1 h3
        rcases mem_splitImports hc with hc | ⟨i, hi, n, hn, rfl⟩
        · exact .inl ⟨c, hc, hcn.symm⟩
        · exact .inr (.inl ⟨i, hi, hcn ▸ hn⟩)
      · obtain ⟨_, _, hm⟩ := h1.mem h3
        exact .inr (.inr hm.madeUp)
  · obtain ⟨m2, h1, as, rfl, -⟩ := hO.only m' hm'
    obtain ⟨m, h2, -, j, rfl⟩ := hS.only m2 h1
    exact ⟨m, h2, rfl⟩

/-! ## A source that meets the conditions -/

/-- ```
Bank DEFINITIONS IMPLICIT TAGS ::= BEGIN
IMPORTS Item, Colour FROM Store;
Bill ::= SEQUENCE { parts SEQUENCE OF SEQUENCE { item Item, count INTEGER }, colour [0] Colour OPTIONAL, kind [1] SET { n NULL } }
END
Store DEFINITIONS IMPLICIT TAGS ::= BEGIN
IMPORTS Colour FROM Base;
Item ::= SEQUENCE { id INTEGER, colour Colour, parts [0] SET OF Item OPTIONAL }
END
Base DEFINITIONS IMPLICIT TAGS ::= BEGIN
Colour ::= INTEGER
END
``` -/
def storeSource : Tree := ⟨[
  ⟨"Bank", .implicit, [⟨"Store", ["Item", "Colour"], []⟩], [⟨"Bill", .type (.sequence [
    .mk "parts" (.seqOf none (.sequence [.mk "item" (.defined none "Item" []) false none none .static_, .mk "count" (.leaf .integer) false none none .static_] false) .static_) false none none .static_,
    .mk "colour" (.prefixed .contextSpecific 0 .automatic (.defined none "Colour" [])) true none none .static_,
    .mk "kind" (.prefixed .contextSpecific 1 .automatic (.set [.mk "n" (.leaf .null) false none none .static_] false)) false none none .static_] false), []⟩]⟩,
  ⟨"Store", .implicit, [⟨"Base", ["Colour"], []⟩], [⟨"Item", .type (.sequence [
    .mk "id" (.leaf .integer) false none none .static_,
    .mk "colour" (.defined none "Colour" []) false none none .static_,
    .mk "parts" (.prefixed .contextSpecific 0 .automatic (.setOf none (.defined none "Item" []) .static_)) true none none .static_] false), []⟩]⟩,
  ⟨"Base", .implicit, [], [⟨"Colour", .type (.leaf .integer), []⟩]⟩]⟩

/-- What the passes make of it. -/
def storeOut : Tree := ⟨[
  ⟨"Base", .implicit, [], [⟨"Colour", .type (.leaf .integer), []⟩]⟩,
  ⟨"Store", .implicit, [⟨"Base", ["Colour"], []⟩], [
    ⟨"Colour", .type (.defined (some "Base") "Colour" []), []⟩,
    ⟨"Item", .type (.sequence [
      .mk "id" (.leaf .integer) false none none .static_,
      .mk "colour" (.defined none "Colour" []) false none none .static_,
      .mk "parts" (.prefixed .contextSpecific 0 .automatic (.setOf none (.defined none "Item" []) .static_)) true none none .dynamic] false), []⟩]⟩,
  ⟨"Bank", .implicit, [⟨"Store", ["Item", "Colour"], []⟩], [
    ⟨"UnnamedSet1", .type (.set [.mk "n" (.leaf .null) false none none .static_] false), []⟩,
    ⟨"Item", .type (.defined (some "Store") "Item" []), []⟩,
    ⟨"UnnamedSequence0", .type (.sequence [.mk "item" (.defined none "Item" []) false none none .static_, .mk "count" (.leaf .integer) false none none .static_] false), []⟩,
    ⟨"Colour", .type (.defined (some "Store") "Colour" []), []⟩,
    ⟨"Bill", .type (.sequence [
      .mk "parts" (.seqOf none (.defined (some "Bank") "UnnamedSequence0" []) .static_) false none none .static_,
      .mk "colour" (.prefixed .contextSpecific 0 .automatic (.defined none "Colour" [])) true none none .static_,
      .mk "kind" (.prefixed .contextSpecific 1 .automatic (.defined (some "Bank") "UnnamedSet1" [])) false none none .static_] false), []⟩]⟩]⟩

theorem store_frontEnd : frontEnd 20 storeSource = .ok storeOut := by rfl

/-- The conditions of C81 are met. -/
theorem store_plain : PlainSource storeSource := Check.plainSource_sound (by decide +kernel)

end FastBer.Props
