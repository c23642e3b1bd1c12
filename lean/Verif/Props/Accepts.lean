import Verif.Proofs.AcceptsAll
import Verif.Proofs.AcceptedCheck
import Verif.Proofs.CompilesAll
import Verif.Proofs.CompilableCheck
import Verif.Props.EndToEnd
import Verif.Props.Compile
/-!
# C98: legal sources are accepted
-/
namespace FastBer.Props
open FastBer FastBer.Ast FastBer.Ast.Spec

/-- C98 (front end): on a source that meets the conditions of `PlainSource`, `SupportedSource` and `Accepted` every pass before the generation of code ends without an error, whatever the
order in which modules and assignments are written.  (Partial: the conditions exclude some legal sources, see `C98_violated_*`.) -/
theorem C98_frontEnd_partial {src : Tree} (hp : PlainSource src) (hs : SupportedSource src) (ha : Accepted src) :
    ∃ f0, ∀ f, f0 ≤ f → ∃ out, frontEnd f src = .ok out := frontEnd_accepts hp hs ha

/-- C98 (whole compiler): if moreover the names made up for C++ are distinct (`CompilableSource`), the types are not ambiguous (`Legal`) and C++ takes the DEFAULT values, then the compiler
ends without an error and its output is valid C++: no declaration is missing, repeated or too late.  (Partial: the sources of `C98_violated_*` are excluded; for recursive types see `C98_compiles_recursive_partial`.) -/
theorem C98_compiles_partial {lib : Lib} {src : Tree} (hp : PlainSource src) (hs : SupportedSource src) (hl : Legal (qualify src)) (ha : Accepted src) (hc : CompilableSource src)
    (hd : DefaultsTaken lib (qualify src)) : ∃ f0, ∀ f, f0 ≤ f → ∃ env, compile lib f src = .ok env := by
  obtain ⟨f1, h1⟩ := frontEnd_accepts hp hs ha
  obtain ⟨out, hout⟩ := h1 f1 (Nat.le_refl _)
  obtain ⟨ms, S, hperm, hfirst, hS, hO, hp1, hp2⟩ := frontEnd_shape hp hout
  obtain ⟨f2, h2⟩ := C79_compiles_partial (hO.supported (hS.supported hs)) (legal_stands hO.corr hO.stands (legal_stands hS.corr hS.stands hl))
    (output_compilable hS hs ha hc hperm hfirst hp1 hp2 hO) (defaultsTaken_stands hO.corr hO.stands (defaultsTaken_stands hS.corr hS.stands hd))
  refine ⟨max f1 f2, fun f hf => ?_⟩
  obtain ⟨env, he, -⟩ := h2 f (Nat.le_trans (Nat.le_max_right _ _) hf)
  refine ⟨env, ?_⟩
  unfold compile
  rw [(frontEnd_okLe (Nat.le_trans (Nat.le_max_left _ _) hf) src).ok out hout, Res.ok_bind]
  exact he

/-- Hence C82 holds of all these sources, without the hypothesis that they are compiled. -/
theorem C98_compiled_partial {lib : Lib} {src : Tree} (hp : PlainSource src) (hs : SupportedSource src) (hl : Legal (qualify src)) (ha : Accepted src) (hc : CompilableSource src)
    (hd : DefaultsTaken lib (qualify src)) (hv : ∀ T v d, lib.default T v = some d → T.Holds d) : ∃ env, SourceCompiled lib src env := by
  obtain ⟨f, h⟩ := C98_compiles_partial hp hs hl ha hc hd
  obtain ⟨env, he⟩ := h f (Nat.le_refl _)
  exact ⟨env, hp, hs, hl, hv, f, he⟩

/-! ## Sources that meet the conditions -/

theorem bank_accepted : Accepted bankSource := Check.accepted_sound (fuel := 20) (by decide +kernel)

example : ∃ f0, ∀ f, f0 ≤ f → ∃ out, frontEnd f bankSource = .ok out :=
  C98_frontEnd_partial (Check.plainSource_sound (by decide +kernel)) (Check.supportedSource_sound (fuel := 20) (by decide +kernel)) bank_accepted

example : ∃ f0, ∀ f, f0 ≤ f → ∃ env, compile demoLib f bankSource = .ok env :=
  C98_compiles_partial (Check.plainSource_sound (by decide +kernel)) (Check.supportedSource_sound (fuel := 20) (by decide +kernel)) (Check.legal_sound (fuel := 20) (by decide +kernel))
    bank_accepted (Check.compilableSource_sound (fuel := 20) (by decide +kernel)) (demoLib_takes (fuel := 20) (by decide +kernel))

/-- A source with enumerations, lists, defaults and structs within structs; assignments in no useful order:
```
Farm DEFINITIONS IMPLICIT TAGS ::= BEGIN
Field ::= SEQUENCE { crop Crop, plots [0] Plots OPTIONAL, size Area DEFAULT 1, owner CHOICE { nobody NULL, farm SEQUENCE { name INTEGER, kinds SET OF Crop } } }
Plots ::= SEQUENCE OF ENUMERATED {…}
Area ::= [3] INTEGER
Crop ::= ENUMERATED {…}
END
``` -/
def farmSource : Tree := ⟨[⟨"Farm", .implicit, [], [
  ⟨"Field", .type (.sequence [plainComp "crop" (localRef "Crop"), .mk "plots" (.prefixed .contextSpecific 0 .automatic (localRef "Plots")) true none none .static_,
    .mk "size" (localRef "Area") false (some (.int 1)) none .static_,
    plainComp "owner" (.choice [.mk "nobody" (.leaf .null), .mk "farm" (.sequence [plainComp "name" (.leaf .integer), plainComp "kinds" (.setOf none (localRef "Crop") .static_)] false)] .static_)] false), []⟩,
  ⟨"Plots", .type (listOf (.leaf .enumerated)), []⟩,
  ⟨"Area", .type (.prefixed .contextSpecific 3 .automatic (.leaf .integer)), []⟩,
  ⟨"Crop", .type (.leaf .enumerated), []⟩]⟩]⟩

example : ∃ f0, ∀ f, f0 ≤ f → ∃ env, compile demoLib f farmSource = .ok env :=
  C98_compiles_partial (Check.plainSource_sound (by decide +kernel)) (Check.supportedSource_sound (fuel := 20) (by decide +kernel)) (Check.legal_sound (fuel := 20) (by decide +kernel))
    (Check.accepted_sound (fuel := 20) (by decide +kernel)) (Check.compilableSource_sound (fuel := 20) (by decide +kernel)) (demoLib_takes (fuel := 20) (by decide +kernel))

/-- A recursive type, with a DEFAULT given by name:
```
Forest DEFINITIONS IMPLICIT TAGS ::= BEGIN
Tree ::= SEQUENCE { weight Item DEFAULT zero, kids Kids, next [1] Tree OPTIONAL }
Kids ::= SEQUENCE OF Tree
Item ::= INTEGER
zero Item ::= 0
END
``` -/
def forestSource : Tree := ⟨[⟨"Forest", .implicit, [], [
  ⟨"Tree", .type (.sequence [.mk "weight" (localRef "Item") false (some (.defined "zero")) none .static_, plainComp "kids" (localRef "Kids"),
    .mk "next" (.prefixed .contextSpecific 1 .automatic (localRef "Tree")) true none none .static_] false), []⟩,
  ⟨"Kids", .type (listOf (localRef "Tree")), []⟩,
  ⟨"Item", .type (.leaf .integer), []⟩,
  ⟨"zero", .value (localRef "Item") (.int 0), []⟩]⟩]⟩

example : ∃ f0, ∀ f, f0 ≤ f → ∃ out, frontEnd f forestSource = .ok out :=
  C98_frontEnd_partial (Check.plainSource_sound (by decide +kernel)) (Check.supportedSource_sound (fuel := 20) (by decide +kernel)) (Check.accepted_sound (fuel := 20) (by decide +kernel))

/-! ## Legal sources that are refused -/

/-- `M ... BEGIN zero INTEGER ::= 0 END  N ... BEGIN IMPORTS zero FROM M; S ::= SEQUENCE { x INTEGER DEFAULT zero } END` -/
def importedValueSource : Tree := ⟨[⟨"M", .implicit, [], [⟨"zero", .value (.leaf .integer) (.int 0), []⟩]⟩,
  ⟨"N", .implicit, [⟨"M", [], ["zero"]⟩], [⟨"S", .type (.sequence [.mk "x" (.leaf .integer) false (some (.defined "zero")) none .static_] false), []⟩]⟩]⟩

/-- C98 is violated: a value that was imported cannot be named after DEFAULT; the compiler says it is not defined. -/
theorem C98_violated_imported_value :
    PlainSource importedValueSource ∧ SupportedSource importedValueSource ∧ ∀ f, frontEnd (f + 20) importedValueSource = .throw .undefinedType := by
  refine ⟨Check.plainSource_sound (by decide +kernel), Check.supportedSource_sound (fuel := 20) (by decide +kernel), fun f => by rfl⟩

/-- `M ... BEGIN Colour ::= ENUMERATED { red } best Colour ::= red END` -/
def enumValueSource : Tree := ⟨[⟨"M", .implicit, [], [⟨"Colour", .type (.leaf .enumerated), []⟩, ⟨"best", .value (localRef "Colour") (.defined "red"), []⟩]⟩]⟩

/-- C98 is violated: a value assignment cannot assign an item of an ENUMERATED; it is taken for the name of an assignment that is missing. -/
theorem C98_violated_enum_value :
    PlainSource enumValueSource ∧ SupportedSource enumValueSource ∧ ∀ f, frontEnd (f + 20) enumValueSource = .throw .undefinedType := by
  refine ⟨Check.plainSource_sound (by decide +kernel), Check.supportedSource_sound (fuel := 20) (by decide +kernel), fun f => by rfl⟩

/-- `M ... BEGIN T ::= SEQUENCE { kids SEQUENCE OF T } END` -/
def inlineListSource : Tree := ⟨[⟨"M", .implicit, [], [⟨"T", .type (.sequence [plainComp "kids" (listOf (localRef "T"))] false), []⟩]⟩]⟩

/-- C98 is violated: a recursive type is refused if the recursion is through a SEQUENCE OF written as the type of a component, although it is accepted if the SEQUENCE OF is assigned a name
(`forestSource`). -/
theorem C98_violated_inline_list :
    PlainSource inlineListSource ∧ SupportedSource inlineListSource ∧ ∀ f, frontEnd (f + 20) inlineListSource = .throw .circular := by
  refine ⟨Check.plainSource_sound (by decide +kernel), Check.supportedSource_sound (fuel := 20) (by decide +kernel), fun f => by rfl⟩

/-- `M ... BEGIN S ::= SEQUENCE { x N.T } END  N ... BEGIN T ::= INTEGER END` -/
def externalSource : Tree := ⟨[⟨"M", .implicit, [], [⟨"S", .type (.sequence [plainComp "x" (.defined (some "N") "T" [])] false), []⟩]⟩,
  ⟨"N", .implicit, [], [⟨"T", .type (.leaf .integer), []⟩]⟩]⟩

/-- C98 is violated: `Module.Type` is refused as the type of a component. -/
theorem C98_violated_external :
    PlainSource externalSource ∧ SupportedSource externalSource ∧ ∀ f, frontEnd (f + 20) externalSource = .throw .undefinedType := by
  refine ⟨Check.plainSource_sound (by decide +kernel), Check.supportedSource_sound (fuel := 20) (by decide +kernel), fun f => by rfl⟩

end FastBer.Props
