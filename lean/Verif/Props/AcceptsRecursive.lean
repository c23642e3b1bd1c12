import Verif.Props.CompileRecursive
import Verif.Props.AcceptsText
import Verif.Props.EvolveText
import Verif.Proofs.StartableSim
/-!
# C98 for sources with recursive types
-/
namespace FastBer.Props
open FastBer FastBer.Ast FastBer.Ast.Spec FastBer.Spec Lexer Lexer.Spec Notation Parser

/-- C98 (whole compiler), with recursive types: the compiler ends without an error and its output is valid C++, on sources that meet the conditions of `C98_compiles_partial`, but may have
recursive types; in definitions that are, or lead to, recursive ones, lists and enumerations are referred to in mandatory components only (`RCompilableSource`).  (Partial: the sources of
`C98_violated_*` are excluded, `C98_violated_later_list` and `C98_violated_later_enum` by the last condition.) -/
theorem C98_compiles_recursive_partial {lib : Lib} {src : Tree} (hp : PlainSource src) (hs : SupportedSource src) (hl : Legal (qualify src)) (ha : Accepted src) (hc : RCompilableSource src)
    (hd : DefaultsTaken lib (qualify src)) : ∃ f0, ∀ f, f0 ≤ f → ∃ env, Fwd.compile lib f src = .ok env := by
  obtain ⟨f1, h1⟩ := frontEnd_accepts hp hs ha
  obtain ⟨out, hout⟩ := h1 f1 (Nat.le_refl _)
  obtain ⟨ms, S, hperm, hfirst, hS, hO, hp1, hp2⟩ := frontEnd_shape hp hout
  obtain ⟨f2, h2⟩ := C79_compiles_recursive_partial (hO.supported (hS.supported hs)) (legal_stands hO.corr hO.stands (legal_stands hS.corr hS.stands hl))
    (output_forward hS hs ha hc hperm hfirst hp1 hp2 hO) (defaultsTaken_stands hO.corr hO.stands (defaultsTaken_stands hS.corr hS.stands hd))
  refine ⟨max f1 f2, fun f hf => ?_⟩
  obtain ⟨env, he, -⟩ := h2 f (Nat.le_trans (Nat.le_max_right _ _) hf)
  exact ⟨env, Res.bind_eq_ok.2 ⟨out, (frontEnd_okLe (Nat.le_trans (Nat.le_max_left _ _) hf) src).ok out hout, he⟩⟩

/-- If moreover every assigned type has a value to begin with, all its C++ types can be default constructed.  Hence C82 holds of all these sources, without the hypothesis that they are
compiled. -/
theorem C98_compiled_recursive_partial {lib : Lib} {src : Tree} (hp : PlainSource src) (hs : SupportedSource src) (hl : Legal (qualify src)) (ha : Accepted src) (hc : RCompilableSource src)
    (hd : DefaultsTaken lib (qualify src)) (hst : AllStartable (qualify src)) (hv : ∀ T v d, lib.default T v = some d → T.Holds d) : ∃ env, RSourceCompiled lib src env := by
  obtain ⟨f, h⟩ := C98_compiles_recursive_partial hp hs hl ha hc hd
  obtain ⟨env, he⟩ := h f (Nat.le_refl _)
  refine ⟨env, hp, hs, hl, hv, ⟨f, he⟩, ?_⟩
  obtain ⟨out, hout, hg⟩ := Res.bind_eq_ok.1 he
  obtain ⟨ms, S, hperm, hfirst, hS, hO, hp1, hp2⟩ := frontEnd_shape hp hout
  have hsS := hS.supported hs
  have hsO := hO.supported hsS
  exact Fwd.program_starts hsO (legal_stands hO.corr hO.stands (legal_stands hS.corr hS.stands hl)) hv
    (startable_stands hO.corr hO.stands hsS.tags hsO.tags (startable_stands hS.corr hS.stands hs.tags hsS.tags hst)) hg

/-- C98 (text), with recursive types: the same for modules written in files, in any layout. -/
theorem C98_text_recursive_partial {stod : Bytes → UInt64} {lib : Lib} {files : List Bytes} {ms : List Module} (hw : Written stod files ms) (hp : PlainSource ⟨ms⟩) (hs : SupportedSource ⟨ms⟩)
    (hl : Legal (qualify ⟨ms⟩)) (ha : Accepted ⟨ms⟩) (hc : RCompilableSource ⟨ms⟩) (hd : DefaultsTaken lib (qualify ⟨ms⟩)) :
    ∃ f0, ∀ f, f0 ≤ f → ∃ env, Fwd.compileFiles stod lib f files = .ok env := by
  have hn := accepted_distinct ha
  obtain ⟨f0, h⟩ := C98_compiles_recursive_partial (plain_back hp) (supported_back hn hs) (legal_back hn hl) (accepted_back ha) (rcompilableSource_back hn hc) (defaultsTaken_back hn hd)
  refine ⟨f0, fun f hf => ?_⟩
  rw [C96_compile_recursive hw]
  exact h f hf

/-- Hence C96 holds of all these files, without the hypothesis that they are compiled. -/
theorem C98_text_compiled_recursive_partial {stod : Bytes → UInt64} {lib : Lib} {files : List Bytes} {ms : List Module} (hw : Written stod files ms) (hp : PlainSource ⟨ms⟩)
    (hs : SupportedSource ⟨ms⟩) (hl : Legal (qualify ⟨ms⟩)) (ha : Accepted ⟨ms⟩) (hc : RCompilableSource ⟨ms⟩) (hd : DefaultsTaken lib (qualify ⟨ms⟩)) (hst : AllStartable (qualify ⟨ms⟩))
    (hv : ∀ T v d, lib.default T v = some d → T.Holds d) : ∃ env, RTextCompiled stod lib files ms env := by
  have hn := accepted_distinct ha
  have hsb := supported_back hn hs
  have hst' : AllStartable (qualify (backT ⟨ms⟩)) := by
    have ht := hsb.tags
    rw [qualify_back] at ht ⊢
    exact startable_stands (corr_back (distinct_qualify hn)) (stands_back _) hs.tags ht hst
  obtain ⟨env, he⟩ := C98_compiled_recursive_partial (plain_back hp) hsb (legal_back hn hl) (accepted_back ha) (rcompilableSource_back hn hc) (defaultsTaken_back hn hd) hst' hv
  refine ⟨env, hw, hn, hp, hs, hl, hv, ?_, he.constructible⟩
  obtain ⟨f, hf⟩ := he.output
  exact ⟨f, (C96_compile_recursive hw lib f).trans hf⟩

/-! ## Sources that meet the conditions -/

/-- A recursive SEQUENCE and CHOICE, a list of recursive elements, an enumeration and a list in mandatory components, in no useful order:
```
Script DEFINITIONS IMPLICIT TAGS ::= BEGIN
Program ::= SEQUENCE { name OCTET STRING, steps Steps }
Steps ::= SEQUENCE OF Step
Step ::= CHOICE { stop NULL, loop Loop, call [1] Call }
Call ::= SEQUENCE { mode Mode, argument [0] Step OPTIONAL }
Loop ::= SEQUENCE { times INTEGER DEFAULT 1, body Steps, otherwise [0] Step OPTIONAL }
Mode ::= ENUMERATED {…}
END
``` -/
def scriptSource : Tree := ⟨[⟨"Script", .implicit, [], [
  ⟨"Program", .type (.sequence [plainComp "name" (.leaf .octetString), plainComp "steps" (localRef "Steps")] false), []⟩,
  ⟨"Steps", .type (listOf (localRef "Step")), []⟩,
  ⟨"Step", .type (.choice [.mk "stop" (.leaf .null), .mk "loop" (localRef "Loop"), .mk "call" (.prefixed .contextSpecific 1 .automatic (localRef "Call"))] .static_), []⟩,
  ⟨"Call", .type (.sequence [plainComp "mode" (localRef "Mode"), .mk "argument" (.prefixed .contextSpecific 0 .automatic (localRef "Step")) true none none .static_] false), []⟩,
  ⟨"Loop", .type (.sequence [.mk "times" (.leaf .integer) false (some (.int 1)) none .static_, plainComp "body" (localRef "Steps"),
    .mk "otherwise" (.prefixed .contextSpecific 0 .automatic (localRef "Step")) true none none .static_] false), []⟩,
  ⟨"Mode", .type (.leaf .enumerated), []⟩]⟩]⟩

example : ∃ env, RSourceCompiled demoLib scriptSource env :=
  C98_compiled_recursive_partial (Check.plainSource_sound (by decide +kernel)) (Check.supportedSource_sound (fuel := 20) (by decide +kernel)) (Check.legal_sound (fuel := 20) (by decide +kernel))
    (Check.accepted_sound (fuel := 20) (by decide +kernel)) (Check.compilableSourceForward_sound (fuel := 20) (by decide +kernel)) (demoLib_takes (fuel := 20) (by decide +kernel))
    (Check.allStartable_sound (fuel := 20) (by decide +kernel)) demoLib_defaults

/-- It has recursive types. -/
example : ¬ CompilableSource scriptSource := fun h => h.recursion _ (List.mem_singleton.2 rfl) ⟨"Step",
  .tail (.single ⟨_, .tail _ (.tail _ (.head _)), rfl, .type (.choice trivial (.tail _ (.head _)) (.reference (.inl rfl)))⟩)
    ⟨_, .tail _ (.tail _ (.tail _ (.tail _ (.head _)))), rfl, .type (.sequence (.tail _ (.tail _ (.head _))) (fun _ => trivial) (.prefixed (.reference (.inl rfl))))⟩⟩

/-- A file that meets the conditions. -/
def chainFile : String := "M DEFINITIONS IMPLICIT TAGS ::= BEGIN T ::= SEQUENCE { a INTEGER , t [ 0 ] T OPTIONAL } END "
def chainItems : List Tok := [.upper ['M'], kw "DEFINITIONS", kw "IMPLICIT", kw "TAGS", kw "::=", kw "BEGIN", .upper ['T'], kw "::=", kw "SEQUENCE", kw "{", .lower ['a'], kw "INTEGER", kw ",",
  .lower ['t'], kw "[", .number 0, kw "]", .upper ['T'], kw "OPTIONAL", kw "}", kw "END"]
def chainModules : List Module := [⟨"M", .implicit, [], [{ name := "T", body := .type (.sequence [required "a" (.leaf .integer),
  optional "t" (.prefixed .contextSpecific 0 .automatic (.defined none "T" []))] false) }]⟩]

theorem chain_written (stod : Bytes → UInt64) : Written stod [bytes chainFile] chainModules := by
  have ha := ComponentN.required ['a'] (.simple (real := stod) (ks := ["INTEGER"]) (k := .integer) (by simp [simpleTypes]))
  have hr := ComponentN.optional ['t'] (.tagged 0 .context (by decide) .default (.reference (real := stod) ['T']))
  have hs := TypeN.sequence (.root (.more (.one ha) hr))
  have hm := FileN.one (.full (o := []) (e := []) (i := []) ['M'] .nothing .implicit .nothing .nothing (.one (.type ['T'] hs)))
  have t1 : Text chainItems (bytes chainFile) := by
    have e : bytes chainFile = itemsText chainItems := by decide +kernel
    rw [e]
    exact itemsText_sound (by decide +kernel)
  exact .cons t1 hm .nil

example (stod : Bytes → UInt64) : ∃ env, RTextCompiled stod demoLib [bytes chainFile] chainModules env :=
  C98_text_compiled_recursive_partial (chain_written stod) (Check.plainSource_sound (by decide +kernel)) (Check.supportedSource_sound (fuel := 20) (by decide +kernel))
    (Check.legal_sound (fuel := 20) (by decide +kernel)) (Check.accepted_sound (fuel := 20) (by decide +kernel)) (Check.compilableSourceForward_sound (fuel := 20) (by decide +kernel))
    (demoLib_takes (fuel := 20) (by decide +kernel)) (Check.allStartable_sound (fuel := 20) (by decide +kernel)) demoLib_defaults

/-- The sources for which invalid C++ is written do not meet the conditions. -/
example : ¬ RCompilableSource laterListSource := fun h => by
  obtain ⟨f, hf⟩ := C98_compiles_recursive_partial (lib := demoLib) (Check.plainSource_sound (by decide +kernel)) (Check.supportedSource_sound (fuel := 20) (by decide +kernel))
    (Check.legal_sound (fuel := 20) (by decide +kernel)) (Check.accepted_sound (fuel := 20) (by decide +kernel)) h (demoLib_takes (fuel := 20) (by decide +kernel))
  obtain ⟨env, he⟩ := hf (f + 20) (Nat.le_add_right _ _)
  rw [C98_violated_later_list.2.2.2 f] at he
  cases he

end FastBer.Props
