import Verif.Props.Accepts
import Verif.Props.EndToEndText
import Verif.Proofs.AcceptedBack
/-!
# C98, from the text of the modules
-/
namespace FastBer.Props
open FastBer Ast Ast.Spec FastBer.Spec Lexer Lexer.Spec Notation Parser

/-- C98 (text): if modules that meet the conditions of `C98_compiles_partial` are written in the files, in any layout, then the compiler ends without an error when run on the files, and its
output is valid C++.  (Partial: see `C98_compiles_partial`; the notation of `Spec/Notation.lean` only.) -/
theorem C98_text_partial {stod : Bytes → UInt64} {lib : Lib} {files : List Bytes} {ms : List Module} (hw : Written stod files ms) (hp : PlainSource ⟨ms⟩) (hs : SupportedSource ⟨ms⟩)
    (hl : Legal (qualify ⟨ms⟩)) (ha : Accepted ⟨ms⟩) (hc : CompilableSource ⟨ms⟩) (hd : DefaultsTaken lib (qualify ⟨ms⟩)) :
    ∃ f0, ∀ f, f0 ≤ f → ∃ env, compileFiles stod lib f files = .ok env := by
  have hn := accepted_distinct ha
  obtain ⟨f0, h⟩ := C98_compiles_partial (plain_back hp) (supported_back hn hs) (legal_back hn hl) (accepted_back ha) (compilableSource_back hn hc) (defaultsTaken_back hn hd)
  refine ⟨f0, fun f hf => ?_⟩
  rw [C96_compile hw]
  exact h f hf

/-- Hence C96 holds of all these files, without the hypothesis that they are compiled. -/
theorem C98_text_compiled_partial {stod : Bytes → UInt64} {lib : Lib} {files : List Bytes} {ms : List Module} (hw : Written stod files ms) (hp : PlainSource ⟨ms⟩) (hs : SupportedSource ⟨ms⟩)
    (hl : Legal (qualify ⟨ms⟩)) (ha : Accepted ⟨ms⟩) (hc : CompilableSource ⟨ms⟩) (hd : DefaultsTaken lib (qualify ⟨ms⟩)) (hv : ∀ T v d, lib.default T v = some d → T.Holds d) :
    ∃ env, TextCompiled stod lib files ms env := by
  obtain ⟨f, h⟩ := C98_text_partial hw hp hs hl ha hc hd
  obtain ⟨env, he⟩ := h f (Nat.le_refl _)
  exact ⟨env, hw, accepted_distinct ha, hp, hs, hl, hv, f, he⟩

/-- Two files (`textFile1`, `textFile2`) that meet the conditions. -/
example (stod : Bytes → UInt64) : ∃ f0, ∀ f, f0 ≤ f → ∃ env, compileFiles stod demoLib f textFiles = .ok env :=
  C98_text_partial (text_written stod) (Check.plainSource_sound (by decide +kernel)) (Check.supportedSource_sound (fuel := 20) (by decide +kernel)) (Check.legal_sound (fuel := 20) (by decide +kernel))
    (Check.accepted_sound (fuel := 20) (by decide +kernel)) (Check.compilableSource_sound (fuel := 20) (by decide +kernel)) (demoLib_takes (fuel := 20) (by decide +kernel))

end FastBer.Props
