import Verif.Props.Emit
import Verif.Props.Pipeline
import Verif.Proofs.SplitSupported
import Verif.Proofs.SourceSupportedCheck
/-!
# C82: from the parsed schema to the octets

C76-C78 start from the tree the passes of the compiler have made; here everything is said about the source itself.
-/
namespace FastBer.Props
open FastBer.Ast FastBer.Ast.Spec FastBer.Spec

/-- The compiler accepts the source and a C++ compiler accepts its output, whose types are those of `env`; the source obeys the restrictions of `Spec/Source.lean` and
`Spec/SupportedSource.lean` and the rules of X.680 on tags; the C++ objects for DEFAULT values, which are not modelled, are objects of their types. -/
structure SourceCompiled (lib : Lib) (src : Tree) (env : Env) : Prop where
  plain : PlainSource src
  supported : SupportedSource src
  legal : Legal (qualify src)
  defaults : ∀ T v d, lib.default T v = some d → T.Holds d
  output : ∃ fuel, compile lib fuel src = .ok env

/-- An assigned type of the source: `name` of module `mod` is `t`, which is no tagged SEQUENCE, SET or CHOICE. -/
structure SourceAssigned (src : Tree) (mod : Module) (name : Name) (t : AType) : Prop where
  module : mod ∈ src.modules
  assignment : ∃ a ∈ mod.assignments, a.name = name ∧ a.body = .type t
  tags : ¬ TaggedStruct (qualify src) (qualifyModule src mod) (qualifyType src mod.name t)

/-- What the passes have made of an assigned type. -/
theorem front_assigned {src out : Tree} (hp : PlainSource src) (hs : SupportedSource src) (hl : Legal (qualify src)) {fuel : Nat} (hf : frontEnd fuel src = .ok out)
    {mod : Module} {name : Name} {t : AType} (ha : SourceAssigned src mod name t) : ∃ mod' t', Supported out ∧ Legal out ∧ Assigned out mod' name t' ∧ mod'.name = mod.name ∧
      (NoBareChoice (qualify src) → NoBareChoice out) ∧
      (∀ P x, Spec.Value P (qualify src) (qualifyModule src mod) (qualifyType src mod.name t) x ↔ Spec.Value P out mod' t' x) ∧
      (∀ r x e, Encodes r (qualify src) (qualifyModule src mod) (qualifyType src mod.name t) x e ↔ Encodes r out mod' t' x e) := by
  obtain ⟨S, hS, hO⟩ := frontEnd_plain hp hf
  obtain ⟨a, ham, rfl, hb⟩ := ha.assignment
  obtain ⟨m2, u, h1, h2, h3, h4⟩ := hS.assigned ha.module ham hb (q := some mod.name) (m0 := mod) rfl
  obtain ⟨w', u', h5, h6⟩ := hO.corr.fwd (m2 := mod) ⟨rfl, rfl, rfl⟩ h3
  obtain ⟨h7, h8, a', h9, h10, h11⟩ := target_mem h5
  refine ⟨w', u', hO.supported (hS.supported hs), legal_stands hO.corr hO.stands (legal_stands hS.corr hS.stands hl),
    ⟨h7, ⟨a', h9, h10, h11⟩, fun hl => ha.tags (lost_source hS hO h4 h6 hl)⟩, h8, fun hb => noBareChoice_stands hO.corr hO.stands (noBareChoice_stands hS.corr hS.stands hb), fun P x => ?_, fun r x e => ?_⟩
  · exact (h4.value_iff hS.corr P x).trans (h6.value_iff hO.corr P x)
  · exact (h4.encodes_iff hS.corr r x e).trans (h6.encodes_iff hO.corr r x e)

/-- What the compiler has made of an assigned type. -/
theorem source_assigned {lib : Lib} {src : Tree} {env : Env} (hc : SourceCompiled lib src env) {mod : Module} {name : Name} {t : AType}
    (ha : SourceAssigned src mod name t) : ∃ out mod' t', Compiled lib out env ∧ Assigned out mod' name t' ∧ mod'.name = mod.name ∧
      (NoBareChoice (qualify src) → NoBareChoice out) ∧
      (∀ P x, Spec.Value P (qualify src) (qualifyModule src mod) (qualifyType src mod.name t) x ↔ Spec.Value P out mod' t' x) ∧
      ∀ r x e, Encodes r (qualify src) (qualifyModule src mod) (qualifyType src mod.name t) x e ↔ Encodes r out mod' t' x e := by
  obtain ⟨fuel, hf⟩ := hc.output
  obtain ⟨out, hf, hg⟩ := Res.bind_eq_ok.1 hf
  obtain ⟨w', u', h1, h2, h3, h4⟩ := front_assigned hc.plain hc.supported hc.legal hf ha
  exact ⟨out, w', u', ⟨h1, h2, hc.defaults, fuel, hg⟩, h3, h4⟩

/-- C82 (encoding): there is a C++ type for every assigned type of the source; its objects hold values of the ASN.1 type; `encode` into a buffer that is large enough writes an X.690
encoding of the value an object holds (strings must have been assigned, not decoded); and every value of the type whose simple values have room in the library can be held by such an object.
Missing, because it is false: the sources excluded by `SourceCompiled` and `SourceAssigned` (`C76_violated_*`, `C79_violated_*`, `C82_violated_*`). -/
theorem C82_encodes_partial {lib : Lib} {src : Tree} {env : Env} (hc : SourceCompiled lib src env) {mod : Module} {name : Name} {t : AType}
    (ha : SourceAssigned src mod name t) :
    ∃ T, env.typeOf mod.name name = some T ∧
      (∀ o x e, T.Rep o x e → T.Fresh o → e.length < 2 ^ 64 → Spec.Value holdable (qualify src) (qualifyModule src mod) (qualifyType src mod.name t) x ∧
        ∀ buf, e.length ≤ buf.length → ∃ buf', T.encode o buf = .ok (⟨true, e.length⟩, buf') ∧
          Encodes (shortest holdable) (qualify src) (qualifyModule src mod) (qualifyType src mod.name t) x (buf'.take e.length)) ∧
      ∀ x, Spec.Value storable (qualify src) (qualifyModule src mod) (qualifyType src mod.name t) x → ∃ o e, T.Rep o x e ∧ T.Fresh o := by
  obtain ⟨out, mod', t', hco, hao, hn, -, hv, he⟩ := source_assigned hc ha
  obtain ⟨T, h1, h2, h3⟩ := C76_encodes_partial hco hao
  refine ⟨T, hn ▸ h1, fun o x e hr hf hl => ?_, fun x hx => h3 x ((hv _ _).1 hx)⟩
  obtain ⟨g1, g2⟩ := h2 o x e hr hf hl
  refine ⟨(hv _ _).2 g1, fun buf hb => ?_⟩
  obtain ⟨buf', k1, k2⟩ := g2 buf hb
  exact ⟨buf', k1, (he _ _ _).2 k2⟩

/-- C82 (round trip): a value that was encoded is decoded again: whatever follows the octets, and whatever the target object held before, decoding succeeds and the target then
holds the same value of the ASN.1 type and compares equal to the object encoded, if that equals itself. -/
theorem C82_round_trip_partial {lib : Lib} {src : Tree} {env : Env} (hc : SourceCompiled lib src env) {mod : Module} {name : Name} {t : AType}
    (ha : SourceAssigned src mod name t) :
    ∃ T, env.typeOf mod.name name = some T ∧
      ∀ o x e, Spec.Value storable (qualify src) (qualifyModule src mod) (qualifyType src mod.name t) x → T.Rep o x e → e.length < 2 ^ 64 →
        ∀ buf r buf', T.encode o buf = .ok (r, buf') → r.success = true → ∀ o0, T.Holds o0 → ∀ suffix,
          ∃ o', T.decode o0 (buf'.take r.length ++ suffix) = .ok (true, o') ∧ T.Rep o' x e ∧ (T.equal o' o = .ok true ↔ T.equal o o = .ok true) := by
  obtain ⟨out, mod', t', hco, hao, hn, -, hv, he⟩ := source_assigned hc ha
  obtain ⟨T, h1, h2⟩ := C77_round_trip_partial hco hao
  exact ⟨T, hn ▸ h1, fun o x e hx => h2 o x e ((hv _ _).1 hx)⟩

/-- C82 (decoding): every X.690 encoding of a value of the ASN.1 type with definite lengths (of up to eight octets, in any form, SET components in any order) whose simple values the
library can read is decoded, whatever follows it that does not overflow a header (`Sane`) and whatever the target held before, to that value. -/
theorem C82_decodes_partial {lib : Lib} {src : Tree} {env : Env} (hc : SourceCompiled lib src env) (hb : NoBareChoice (qualify src)) {mod : Module} {name : Name} {t : AType}
    (ha : SourceAssigned src mod name t) :
    ∃ T, env.typeOf mod.name name = some T ∧
      ∀ x e, Encodes (definite readable) (qualify src) (qualifyModule src mod) (qualifyType src mod.name t) x e → e.length < 2 ^ 64 → ∀ suffix, Sane suffix → ∀ o0, T.Holds o0 →
        ∃ o' e', T.decode o0 (e ++ suffix) = .ok (true, o') ∧ T.Rep o' x e' := by
  obtain ⟨out, mod', t', hco, hao, hn, hbc, hv, he⟩ := source_assigned hc ha
  obtain ⟨T, h1, h2⟩ := C78_decodes_partial hco (hbc hb) hao
  exact ⟨T, hn ▸ h1, fun x e hx => h2 x e ((he _ _ _).1 hx)⟩

/-! ## A source that meets the conditions -/

/-- ```
Bank DEFINITIONS IMPLICIT TAGS ::= BEGIN
IMPORTS Item, Colour FROM Store;
Bill ::= SEQUENCE { parts SEQUENCE OF SEQUENCE { item Item, count INTEGER }, colour [0] Colour OPTIONAL, kind [1] SET { n NULL } }
END
Store DEFINITIONS IMPLICIT TAGS ::= BEGIN
IMPORTS Colour FROM Base;
Item ::= SEQUENCE { id INTEGER, colour Colour, sizes [0] SET OF INTEGER OPTIONAL }
END
Base DEFINITIONS IMPLICIT TAGS ::= BEGIN
Colour ::= BOOLEAN
END
``` -/
def bankSource : Tree := ⟨[
  ⟨"Bank", .implicit, [⟨"Store", ["Item", "Colour"], []⟩], [⟨"Bill", .type (.sequence [
    .mk "parts" (.seqOf none (.sequence [.mk "item" (.defined none "Item" []) false none none .static_, .mk "count" (.leaf .integer) false none none .static_] false) .static_) false none none .static_,
    .mk "colour" (.prefixed .contextSpecific 0 .automatic (.defined none "Colour" [])) true none none .static_,
    .mk "kind" (.prefixed .contextSpecific 1 .automatic (.set [.mk "n" (.leaf .null) false none none .static_] false)) false none none .static_] false), []⟩]⟩,
  ⟨"Store", .implicit, [⟨"Base", ["Colour"], []⟩], [⟨"Item", .type (.sequence [
    .mk "id" (.leaf .integer) false none none .static_,
    .mk "colour" (.defined none "Colour" []) false none none .static_,
    .mk "sizes" (.prefixed .contextSpecific 0 .automatic (.setOf none (.leaf .integer) .static_)) true none none .static_] false), []⟩]⟩,
  ⟨"Base", .implicit, [], [⟨"Colour", .type (.leaf .boolean), []⟩]⟩]⟩

/-- What the passes make of it. -/
def bankOut : Tree := ⟨[
  ⟨"Base", .implicit, [], [⟨"Colour", .type (.leaf .boolean), []⟩]⟩,
  ⟨"Store", .implicit, [⟨"Base", ["Colour"], []⟩], [
    ⟨"Colour", .type (.defined (some "Base") "Colour" []), []⟩,
    ⟨"Item", .type (.sequence [
      .mk "id" (.leaf .integer) false none none .static_,
      .mk "colour" (.defined none "Colour" []) false none none .static_,
      .mk "sizes" (.prefixed .contextSpecific 0 .automatic (.setOf none (.leaf .integer) .static_)) true none none .static_] false), []⟩]⟩,
  ⟨"Bank", .implicit, [⟨"Store", ["Item", "Colour"], []⟩], [
    ⟨"UnnamedSet1", .type (.set [.mk "n" (.leaf .null) false none none .static_] false), []⟩,
    ⟨"Item", .type (.defined (some "Store") "Item" []), []⟩,
    ⟨"UnnamedSequence0", .type (.sequence [.mk "item" (.defined none "Item" []) false none none .static_, .mk "count" (.leaf .integer) false none none .static_] false), []⟩,
    ⟨"Colour", .type (.defined (some "Store") "Colour" []), []⟩,
    ⟨"Bill", .type (.sequence [
      .mk "parts" (.seqOf none (.defined (some "Bank") "UnnamedSequence0" []) .static_) false none none .static_,
      .mk "colour" (.prefixed .contextSpecific 0 .automatic (.defined none "Colour" [])) true none none .static_,
      .mk "kind" (.prefixed .contextSpecific 1 .automatic (.defined (some "Bank") "UnnamedSet1" [])) false none none .static_] false), []⟩]⟩]⟩

theorem bank_frontEnd : frontEnd 20 bankSource = .ok bankOut := by rfl

/-- The C++ types. -/
def bankItem : Ty := .seq (univ 16) (.cons .mandatory [] (.leaf .int (univ 2)) (.cons .mandatory [] (.leaf .bool (univ 1))
    (.cons .optional [⟨.contextSpecific, 0⟩] (.seqOf (ctx 0) (.leaf .int (univ 2))) .nil)))

def bankBill : Ty := .seq (univ 16) <|
  .cons .mandatory [] (.seqOf (univ 16) (.seq (univ 16) (.cons .mandatory [] bankItem (.cons .mandatory [] (.leaf .int (univ 2)) .nil)))) <|
  .cons .optional [⟨.contextSpecific, 0⟩] (.leaf .bool (ctx 0)) <|
  .cons .mandatory [] (.set (ctx 1) false (.cons .mandatory [⟨.universal, 5⟩] (.leaf .null (univ 5)) .nil)) .nil

theorem bank_generate : ∃ env, generate demoLib 20 bankOut = .ok env ∧ env.typeOf "Bank" "Bill" = some bankBill := ⟨_, rfl, rfl⟩

theorem bank_compiles : ∃ env, SourceCompiled demoLib bankSource env ∧ env.typeOf "Bank" "Bill" = some bankBill := by
  obtain ⟨env, h1, h2⟩ := bank_generate
  refine ⟨env, ⟨Check.plainSource_sound (by decide +kernel), Check.supportedSource_sound (fuel := 20) (by decide +kernel), Check.legal_sound (fuel := 20) (by decide +kernel),
    demoLib_defaults, 20, ?_⟩, h2⟩
  unfold compile
  rw [bank_frontEnd]
  exact h1

theorem bank_noBareChoice : NoBareChoice (qualify bankSource) := Check.noBareChoice_sound (fuel := 20) (by decide +kernel)

theorem bill_assigned : SourceAssigned bankSource bankSource.modules[0] "Bill" (.sequence [
    .mk "parts" (.seqOf none (.sequence [.mk "item" (.defined none "Item" []) false none none .static_, .mk "count" (.leaf .integer) false none none .static_] false) .static_) false none none .static_,
    .mk "colour" (.prefixed .contextSpecific 0 .automatic (.defined none "Colour" [])) true none none .static_,
    .mk "kind" (.prefixed .contextSpecific 1 .automatic (.set [.mk "n" (.leaf .null) false none none .static_] false)) false none none .static_] false) where
  module := List.mem_cons_self
  assignment := ⟨_, List.mem_cons_self, rfl, rfl⟩
  tags := Check.taggedStruct_sound 5 _ _ rfl

/-! ## Legal sources outside the conditions -/

/-- `M DEFINITIONS IMPLICIT TAGS ::= BEGIN A ::= [APPLICATION 1] SEQUENCE { } END` -/
def applicationSource : Tree := ⟨[⟨"M", .implicit, [], [⟨"A", .type (.prefixed .application 1 .automatic (.sequence [] false)), []⟩]⟩]⟩

def applicationOut : Tree := ⟨[⟨"M", .implicit, [], [⟨"UnnamedSequence0", .type (.sequence [] false), []⟩,
  ⟨"A", .type (.prefixed .application 1 .automatic (.defined (some "M") "UnnamedSequence0" [])), []⟩]⟩]⟩

theorem application_frontEnd (f : Nat) : frontEnd (f + 20) applicationSource = .ok applicationOut := by rfl

theorem application_generate (lib : Lib) (f : Nat) : ∃ env, generate lib (f + 20) applicationOut = .ok env ∧ env.typeOf "M" "A" = some (.seq (univ 16) .nil) := ⟨_, rfl, rfl⟩

/-- C82 is violated: `A ::= [APPLICATION 1] SEQUENCE { }` is accepted, but the tag is lost: the encoding `61 00` of its only value is not decoded, and `encode` writes `30 00`. -/
theorem C82_violated_lost_tag :
    PlainSource applicationSource ∧ SupportedSource applicationSource ∧ Legal (qualify applicationSource) ∧
    (∀ lib f, ∃ env, compile lib (f + 20) applicationSource = .ok env ∧ env.typeOf "M" "A" = some (.seq (univ 16) .nil)) ∧
    Encodes (definite readable) (qualify applicationSource) (qualifyModule applicationSource applicationSource.modules[0])
      (qualifyType applicationSource "M" (.prefixed .application 1 .automatic (.sequence [] false))) (.struct []) [0x61, 0] ∧
    succeeded ((Ty.seq (univ 16) .nil).decode (.struct []) [0x61, 0]) = false ∧
    (Ty.seq (univ 16) .nil).encode (.struct []) [0, 0] = .ok (⟨true, 2⟩, [0x30, 0]) := by
  refine ⟨Check.plainSource_sound (by decide +kernel), Check.supportedSource_sound (fuel := 20) (by decide +kernel), Check.legal_sound (fuel := 20) (by decide +kernel),
    fun lib f => ?_, ?_, by decide +kernel, rfl⟩
  · unfold compile
    rw [application_frontEnd]
    exact application_generate lib f
  exact .intro (Check.ownTags_sound 9 _ _ _ rfl) (Check.core_sound 9 _ _ _ _ rfl) (.sequence (.nil _)) ⟨[0], .short (by decide), rfl⟩

/-- ```
M DEFINITIONS IMPLICIT TAGS ::= BEGIN L ::= SEQUENCE OF NULL END
N DEFINITIONS IMPLICIT TAGS ::= BEGIN IMPORTS L FROM M; S ::= SEQUENCE { l L } END
``` -/
def listSource : Tree := ⟨[⟨"M", .implicit, [], [⟨"L", .type (listOf (.leaf .null)), []⟩]⟩,
  ⟨"N", .implicit, [⟨"M", ["L"], []⟩], [⟨"S", .type (.sequence [plainComp "l" (localRef "L")] false), []⟩]⟩]⟩

def listOut : Tree := ⟨[⟨"M", .implicit, [], [⟨"L", .type (listOf (.leaf .null)), []⟩]⟩,
  ⟨"N", .implicit, [⟨"M", ["L"], []⟩], [⟨"L", .type (.defined (some "M") "L" []), []⟩, ⟨"S", .type (.sequence [plainComp "l" (localRef "L")] false), []⟩]⟩]⟩

theorem list_frontEnd (f : Nat) : frontEnd (f + 20) listSource = .ok listOut := by rfl

/-- C82 is violated: the output for an imported SEQUENCE OF type is not valid C++. -/
theorem C82_violated_imported_list :
    PlainSource listSource ∧ Legal (qualify listSource) ∧ ∀ lib f, compile lib (f + 20) listSource = .throw .cpp := by
  refine ⟨Check.plainSource_sound (by decide +kernel), Check.legal_sound (fuel := 20) (by decide +kernel), fun lib f => ?_⟩
  unfold compile
  rw [list_frontEnd]
  rfl

/-- ```
M DEFINITIONS IMPLICIT TAGS ::= BEGIN T {X} ::= SEQUENCE { x X } END
N DEFINITIONS IMPLICIT TAGS ::= BEGIN IMPORTS T FROM M; S ::= T {NULL} END
``` -/
def templateSource : Tree := ⟨[⟨"M", .implicit, [], [⟨"T", .type (.sequence [plainComp "x" (localRef "X")] false), [⟨none, "X"⟩]⟩]⟩,
  ⟨"N", .implicit, [⟨"M", ["T"], []⟩], [⟨"S", .type (.defined none "T" [.leaf .null]), []⟩]⟩]⟩

theorem template_frontEnd (f : Nat) : ∃ e, frontEnd f templateSource = .throw e := ⟨_, rfl⟩

/-- C82 is violated: the compiler reports an error for an imported parameterized type, because its definition is looked for in the importing module alone. -/
theorem C82_violated_imported_parameterized (lib : Lib) (f : Nat) : ∃ e, compile lib f templateSource = .throw e := by
  obtain ⟨e, he⟩ := template_frontEnd f
  exact ⟨e, by unfold compile; rw [he]; rfl⟩

end FastBer.Props
