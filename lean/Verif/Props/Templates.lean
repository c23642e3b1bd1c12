import Verif.Props.Accepts
import Verif.Proofs.Templates
/-!
# C82 and C98 for sources with parameterized types

`ExpandedModule` (`Spec/Params.lean`) says what a module with parameterized types means: the module without its templates, each reference `T {x, y}` replaced by the body of `T` with the
arguments in place of the parameters.  (The argument lists are those of the parsed source; see `C61_violated` for what the parser does to lists of more than one.)
-/
namespace FastBer.Props
open FastBer FastBer.Ast FastBer.Ast.Spec

/-- C82 (parameterized types): the compiler makes of a source what it makes of the source its references mean, if that source is plain.  (Partial: templates with COMPONENTS OF, references
inside templates and arguments, and references to templates of other modules without module name are not covered; `C61_*_violated`, `C82_violated_imported_parameterized`.) -/
theorem C82_templates_partial {src src' : Tree} (hg : GoodTemplates src) (hx : Pointwise (ExpandedModule src) src.modules src'.modules) (hp : PlainSource src') (lib : Lib) (fuel : Nat) :
    compile lib fuel src = compile lib fuel src' := (compile_expanded hg hx hp lib fuel).2

/-- So `C82_encodes_partial`, `C82_round_trip_partial` and `C82_decodes_partial` hold of its output, with the types of the expanded source. -/
theorem C82_templates_compiled_partial {lib : Lib} {src src' : Tree} {env : Env} (hg : GoodTemplates src) (hx : Pointwise (ExpandedModule src) src.modules src'.modules) (hp : PlainSource src')
    (hs : SupportedSource src') (hl : Legal (qualify src')) (hv : ∀ T v d, lib.default T v = some d → T.Holds d) (hc : ∃ fuel, compile lib fuel src = .ok env) : SourceCompiled lib src' env := by
  obtain ⟨fuel, hf⟩ := hc
  rw [C82_templates_partial hg hx hp] at hf
  exact ⟨hp, hs, hl, hv, fuel, hf⟩

/-- C98 for sources with parameterized types: they are accepted, and so is the output, if the expanded source meets the conditions. -/
theorem C98_templates_partial {lib : Lib} {src src' : Tree} (hg : GoodTemplates src) (hx : Pointwise (ExpandedModule src) src.modules src'.modules) (hp : PlainSource src')
    (hs : SupportedSource src') (hl : Legal (qualify src')) (ha : Accepted src') (hc : CompilableSource src') (hd : DefaultsTaken lib (qualify src')) :
    ∃ f0, ∀ f, f0 ≤ f → ∃ env, compile lib f src = .ok env := by
  obtain ⟨f0, h⟩ := C98_compiles_partial hp hs hl ha hc hd
  exact ⟨f0, fun f hf => by rw [C82_templates_partial hg hx hp]; exact h f hf⟩

/-! ## A source that meets the conditions -/

/-- ```
Mail DEFINITIONS IMPLICIT TAGS ::= BEGIN
Signed {T} ::= SEQUENCE { body T, copies [0] SEQUENCE OF T OPTIONAL, sum INTEGER }
Letter ::= Signed {OCTET STRING}
Stack ::= SEQUENCE OF Signed {Address}
Address ::= SET { town [0] OCTET STRING, code [1] INTEGER DEFAULT 1 }
END
``` -/
def mailSource : Tree := ⟨[⟨"Mail", .implicit, [], [
  ⟨"Signed", .type (.sequence [plainComp "body" (localRef "T"), .mk "copies" (.prefixed .contextSpecific 0 .automatic (.seqOf none (localRef "T") .smallBuffer)) true none none .static_,
    plainComp "sum" (.leaf .integer)] false), [⟨none, "T"⟩]⟩,
  ⟨"Letter", .type (.defined none "Signed" [.leaf .octetString]), []⟩,
  ⟨"Stack", .type (.seqOf none (.defined none "Signed" [localRef "Address"]) .smallBuffer), []⟩,
  ⟨"Address", .type (.set [plainComp "town" (.prefixed .contextSpecific 0 .automatic (.leaf .octetString)),
    .mk "code" (.prefixed .contextSpecific 1 .automatic (.leaf .integer)) false (some (.int 1)) none .static_] false), []⟩]⟩]⟩

/-- `Signed {t}` -/
def signed (t : AType) : AType := .sequence [plainComp "body" t, .mk "copies" (.prefixed .contextSpecific 0 .automatic (.seqOf none t .smallBuffer)) true none none .static_,
    plainComp "sum" (.leaf .integer)] false

def mailExpanded : Tree := ⟨[⟨"Mail", .implicit, [], [
  ⟨"Letter", .type (signed (.leaf .octetString)), []⟩,
  ⟨"Stack", .type (.seqOf none (signed (localRef "Address")) .smallBuffer), []⟩,
  ⟨"Address", .type (.set [plainComp "town" (.prefixed .contextSpecific 0 .automatic (.leaf .octetString)),
    .mk "code" (.prefixed .contextSpecific 1 .automatic (.leaf .integer)) false (some (.int 1)) none .static_] false), []⟩]⟩]⟩

theorem mail_templates : GoodTemplates mailSource := by
  intro mod ref ps body h hps
  unfold template at h
  obtain ⟨m, hm, h⟩ := Option.bind_eq_some_iff.1 h
  obtain ⟨a, ha, h⟩ := Option.bind_eq_some_iff.1 h
  have hm := List.mem_of_find?_eq_some hm
  have ha := List.mem_of_find?_eq_some ha
  simp only [mailSource, List.mem_singleton] at hm
  subst hm
  simp only [List.mem_cons, List.not_mem_nil, or_false] at ha
  rcases ha with rfl | rfl | rfl | rfl
  · cases h
    refine ⟨by decide, ?_⟩
    have leafy : ∀ m n ps, ¬ Somewhere HasComponentsOf (.defined m n ps) := fun m n ps =>
      not_somewhere_leaf (fun c h => by cases h) (by rintro ⟨cs, e, h | h, _⟩ <;> cases h)
    rw [somewhere_iff]
    rintro (⟨cs, e, h | h, c, hc, hn⟩ | ⟨c, h, hs⟩)
    · cases h
      simp only [List.mem_cons, List.not_mem_nil, or_false] at hc
      rcases hc with rfl | rfl | rfl <;> exact hn rfl
    · cases h
    · cases h with
      | sequence hc =>
        simp only [List.mem_cons, List.not_mem_nil, or_false] at hc
        rcases hc with rfl | rfl | rfl
        · exact leafy _ _ _ hs
        · rw [Comp.type, somewhere_iff] at hs
          rcases hs with ⟨cs, e, h | h, _⟩ | ⟨c, h, hs⟩
          · cases h
          · cases h
          · cases h
            rw [somewhere_iff] at hs
            rcases hs with ⟨cs, e, h | h, _⟩ | ⟨c, h, hs⟩
            · cases h
            · cases h
            · cases h; exact leafy _ _ _ hs
        · exact not_somewhere_leaf (fun c h => by cases h) (by rintro ⟨cs, e, h | h, _⟩ <;> cases h) hs
  all_goals cases h; exact absurd rfl hps

theorem mail_expanded : Pointwise (ExpandedModule mailSource) mailSource.modules mailExpanded.modules := by
  have inst : ∀ t, Expanded mailSource "Mail" (.defined none "Signed" [t]) (signed t) := by
    intro t
    have := Expanded.instance (tree := mailSource) (mod := "Mail") (m := none) (ref := "Signed") (args := [t]) (ps := [⟨none, "T"⟩]) (by nofun) rfl rfl
    simpa [substitute, substituteComps, substituteArgs, substituteOpt, argument, plainComp, localRef, signed] using this
  refine .cons ⟨rfl, rfl, rfl, ?_⟩ .nil
  exact .cons (.type (inst _)) (.cons (.type (.seqOf _ _ (inst _))) (.cons (.type (.set _ (.cons (.prefixed _ _ _ (.leaf _)) (.cons (.prefixed _ _ _ (.leaf _)) .nil)))) .nil))

example : ∃ f0, ∀ f, f0 ≤ f → ∃ env, compile demoLib f mailSource = .ok env :=
  C98_templates_partial mail_templates mail_expanded (Check.plainSource_sound (by decide +kernel)) (Check.supportedSource_sound (fuel := 20) (by decide +kernel))
    (Check.legal_sound (fuel := 20) (by decide +kernel)) (Check.accepted_sound (fuel := 20) (by decide +kernel)) (Check.compilableSource_sound (fuel := 20) (by decide +kernel))
    (demoLib_takes (fuel := 20) (by decide +kernel))

end FastBer.Props
