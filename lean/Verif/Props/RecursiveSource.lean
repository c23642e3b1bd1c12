import Verif.Model.CompileForward
import Verif.Props.RecursiveEmit
import Verif.Props.EndToEndText
/-!
# C82 and C96 for schemas with circular references

C76-C78, C90 and C91 for circular schemas (Props/RecursiveEmit) start from the tree the passes of the compiler have made; here everything is said about the source, and about the files.
-/
namespace FastBer.Props
open FastBer FastBer.Ast FastBer.Ast.Spec FastBer.Spec Lexer Lexer.Spec Notation Parser

/-- As `SourceCompiled`; the output may use the forward declarations, and every type can be default constructed (`C90_violated_default` is one that cannot). -/
structure RSourceCompiled (lib : Lib) (src : Tree) (env : Fwd.Env) : Prop where
  plain : PlainSource src
  supported : SupportedSource src
  legal : Legal (qualify src)
  defaults : ∀ T v d, lib.default T v = some d → T.Holds d
  output : ∃ fuel, Fwd.compile lib fuel src = .ok env
  constructible : ∃ k, ∀ m ref T, env.typeOf m ref = some T → ∃ o, env.program.new ⟨m, ref, none⟩ k = .ok o

/-- What the compiler has made of an assigned type. -/
theorem rsource_assigned {lib : Lib} {src : Tree} {env : Fwd.Env} (hc : RSourceCompiled lib src env) {mod : Module} {name : Name} {t : AType}
    (ha : SourceAssigned src mod name t) : ∃ out mod' t', RCompiled lib out env ∧ Assigned out mod' name t' ∧ mod'.name = mod.name ∧
      (NoBareChoice (qualify src) → NoBareChoice out) ∧
      (∀ P x, Spec.Value P (qualify src) (qualifyModule src mod) (qualifyType src mod.name t) x ↔ Spec.Value P out mod' t' x) ∧
      ∀ r x e, Encodes r (qualify src) (qualifyModule src mod) (qualifyType src mod.name t) x e ↔ Encodes r out mod' t' x e := by
  obtain ⟨fuel, hf⟩ := hc.output
  obtain ⟨out, hf, hg⟩ := Res.bind_eq_ok.1 hf
  obtain ⟨w', u', h1, h2, h3, h4⟩ := front_assigned hc.plain hc.supported hc.legal hf ha
  exact ⟨out, w', u', ⟨h1, h2, hc.defaults, ⟨fuel, hg⟩, hc.constructible⟩, h3, h4⟩

/-- C82 (encoding), for sources with circular references: there is a C++ type for every assigned type of the source; its objects hold values of the ASN.1 type; `encode` into a buffer that is
large enough returns and has written an X.690 encoding of the value an object holds (strings must have been assigned, not decoded); and every value of the type whose simple values have room in the
library, however deep, can be held by such an object.  Missing: as in `C82_encodes_partial`, and types that cannot be default constructed. -/
theorem C82_encodes_recursive_partial {lib : Lib} {src : Tree} {env : Fwd.Env} (hc : RSourceCompiled lib src env) {mod : Module} {name : Name} {t : AType}
    (ha : SourceAssigned src mod name t) :
    (∃ T, env.typeOf mod.name name = some T) ∧
      (∀ o x e, env.program.RepFresh ⟨mod.name, name, none⟩ o x e → e.length < 2 ^ 64 →
        Spec.Value holdable (qualify src) (qualifyModule src mod) (qualifyType src mod.name t) x ∧
        ∀ buf, e.length ≤ buf.length → ∃ buf', Returns (env.program.encode ⟨mod.name, name, none⟩ o buf) (.ok (⟨true, e.length⟩, buf')) ∧
          Encodes (shortest holdable) (qualify src) (qualifyModule src mod) (qualifyType src mod.name t) x (buf'.take e.length)) ∧
      ∀ x, Spec.Value storable (qualify src) (qualifyModule src mod) (qualifyType src mod.name t) x → ∃ o e, env.program.RepFresh ⟨mod.name, name, none⟩ o x e := by
  obtain ⟨out, mod', t', hco, hao, hn, -, hv, he⟩ := rsource_assigned hc ha
  obtain ⟨h1, h2, h3⟩ := C76_encodes_recursive_partial hco hao
  rw [hn] at h1 h2 h3
  refine ⟨h1, fun o x e hr hl => ?_, fun x hx => h3 x ((hv _ _).1 hx)⟩
  obtain ⟨g1, g2⟩ := h2 o x e hr hl
  refine ⟨(hv _ _).2 g1, fun buf hb => ?_⟩
  obtain ⟨buf', k1, k2⟩ := g2 buf hb
  exact ⟨buf', k1, (he _ _ _).2 k2⟩

/-- C82 (round trip), for sources with circular references: a value that was encoded is decoded again, whatever follows the octets and whatever the target object held before, and compares
equal to the object encoded, if that equals itself. -/
theorem C82_round_trip_recursive_partial {lib : Lib} {src : Tree} {env : Fwd.Env} (hc : RSourceCompiled lib src env) {mod : Module} {name : Name} {t : AType}
    (ha : SourceAssigned src mod name t) :
    ∀ o x e, Spec.Value storable (qualify src) (qualifyModule src mod) (qualifyType src mod.name t) x → env.program.Rep ⟨mod.name, name, none⟩ o x e → e.length < 2 ^ 64 →
      ∀ buf, e.length ≤ buf.length → ∀ o0, env.program.Holds ⟨mod.name, name, none⟩ o0 → ∀ suffix,
        ∃ buf' o', Returns (env.program.encode ⟨mod.name, name, none⟩ o buf) (.ok (⟨true, e.length⟩, buf')) ∧
          Returns (env.program.decode ⟨mod.name, name, none⟩ o0 (buf'.take e.length ++ suffix)) (.ok (true, o')) ∧
          env.program.Rep ⟨mod.name, name, none⟩ o' x e ∧
          (Returns (env.program.equal ⟨mod.name, name, none⟩ o' o) (.ok true) ↔ Returns (env.program.equal ⟨mod.name, name, none⟩ o o) (.ok true)) := by
  obtain ⟨out, mod', t', hco, hao, hn, -, hv, he⟩ := rsource_assigned hc ha
  have h2 := C77_round_trip_recursive_partial hco hao
  rw [hn] at h2
  exact fun o x e hx => h2 o x e ((hv _ _).1 hx)

/-- C82 (decoding), for sources with circular references: every X.690 encoding of a value of the ASN.1 type with definite lengths whose simple values the library can read is decoded, however
deep, whatever follows it that does not overflow a header (`Sane`) and whatever the target held before, to that value. -/
theorem C82_decodes_recursive_partial {lib : Lib} {src : Tree} {env : Fwd.Env} (hc : RSourceCompiled lib src env) (hb : NoBareChoice (qualify src)) {mod : Module} {name : Name} {t : AType}
    (ha : SourceAssigned src mod name t) :
    ∀ x e, Encodes (definite readable) (qualify src) (qualifyModule src mod) (qualifyType src mod.name t) x e → e.length < 2 ^ 64 → ∀ suffix, Sane suffix →
      ∀ o0, env.program.Holds ⟨mod.name, name, none⟩ o0 →
        ∃ o' e', Returns (env.program.decode ⟨mod.name, name, none⟩ o0 (e ++ suffix)) (.ok (true, o')) ∧ env.program.Rep ⟨mod.name, name, none⟩ o' x e' := by
  obtain ⟨out, mod', t', hco, hao, hn, hbc, hv, he⟩ := rsource_assigned hc ha
  have h2 := C78_decodes_recursive_partial hco (hbc hb) hao
  rw [hn] at h2
  exact fun x e hx => h2 x e ((he _ _ _).1 hx)

/-- As `TextCompiled`; the output may use the forward declarations, and every type can be default constructed. -/
structure RTextCompiled (stod : Bytes → UInt64) (lib : Lib) (files : List Bytes) (ms : List Module) (env : Fwd.Env) : Prop where
  written : Written stod files ms
  distinct : ∀ m ∈ ms, m.assignments.Pairwise fun a b => a.name ≠ b.name
  plain : PlainSource ⟨ms⟩
  supported : SupportedSource ⟨ms⟩
  legal : Legal (qualify ⟨ms⟩)
  defaults : ∀ T v d, lib.default T v = some d → T.Holds d
  output : ∃ fuel, Fwd.compileFiles stod lib fuel files = .ok env
  constructible : ∃ k, ∀ m ref T, env.typeOf m ref = some T → ∃ o, env.program.new ⟨m, ref, none⟩ k = .ok o

/-- C96, for files with circular references: the compiler makes of the files what it makes of the modules written in them, with the assignments of each module in reverse order, which have no order. -/
theorem C96_compile_recursive {stod : Bytes → UInt64} {files : List Bytes} {ms : List Module} (h : Written stod files ms) (lib : Lib) (fuel : Nat) :
    Fwd.compileFiles stod lib fuel files = Fwd.compile lib fuel ⟨ms.map fun m => { m with assignments := m.assignments.reverse }⟩ := by
  unfold Fwd.compileFiles
  rw [C92_files h]
  rfl

theorem rtext_compiled {stod : Bytes → UInt64} {lib : Lib} {files : List Bytes} {ms : List Module} {env : Fwd.Env} (h : RTextCompiled stod lib files ms env) :
    RSourceCompiled lib (backT ⟨ms⟩) env where
  plain := plain_back h.plain
  supported := supported_back h.distinct h.supported
  legal := legal_back h.distinct h.legal
  defaults := h.defaults
  output := by
    obtain ⟨fuel, hf⟩ := h.output
    rw [C96_compile_recursive h.written] at hf
    exact ⟨fuel, hf⟩
  constructible := h.constructible

/-- **C96 (encoding), for files with circular references.**  There is a C++ type for every type assigned in the files; its objects hold values of the ASN.1 type; `encode` into a buffer that is
large enough returns and has written an X.690 encoding of the value an object holds; and every value of the type whose simple values have room in the library, however deep, can be held by such an
object.  Missing: as in `C96_encodes_partial`, and types that cannot be default constructed. -/
theorem C96_encodes_recursive_partial {stod : Bytes → UInt64} {lib : Lib} {files : List Bytes} {ms : List Module} {env : Fwd.Env} (hc : RTextCompiled stod lib files ms env) {mod : Module}
    {name : Name} {t : AType} (ha : SourceAssigned ⟨ms⟩ mod name t) :
    (∃ T, env.typeOf mod.name name = some T) ∧
      (∀ o x e, env.program.RepFresh ⟨mod.name, name, none⟩ o x e → e.length < 2 ^ 64 →
        Ast.Spec.Value holdable (qualify ⟨ms⟩) (qualifyModule ⟨ms⟩ mod) (qualifyType ⟨ms⟩ mod.name t) x ∧
        ∀ buf, e.length ≤ buf.length → ∃ buf', Returns (env.program.encode ⟨mod.name, name, none⟩ o buf) (.ok (⟨true, e.length⟩, buf')) ∧
          Encodes (shortest holdable) (qualify ⟨ms⟩) (qualifyModule ⟨ms⟩ mod) (qualifyType ⟨ms⟩ mod.name t) x (buf'.take e.length)) ∧
      ∀ x, Ast.Spec.Value storable (qualify ⟨ms⟩) (qualifyModule ⟨ms⟩ mod) (qualifyType ⟨ms⟩ mod.name t) x → ∃ o e, env.program.RepFresh ⟨mod.name, name, none⟩ o x e := by
  obtain ⟨h1, h2, h3⟩ := C82_encodes_recursive_partial (rtext_compiled hc) (text_assigned hc.distinct ha)
  refine ⟨h1, fun o x e hr hl => ?_, fun x hx => h3 x ((value_back (T := ⟨ms⟩) hc.distinct _ _ _ _ _).2 hx)⟩
  obtain ⟨g1, g2⟩ := h2 o x e hr hl
  refine ⟨(value_back (T := ⟨ms⟩) hc.distinct _ _ _ _ _).1 g1, fun buf hb => ?_⟩
  obtain ⟨buf', k1, k2⟩ := g2 buf hb
  exact ⟨buf', k1, (encodes_back (T := ⟨ms⟩) hc.distinct _ _ _ _ _ _).1 k2⟩

/-- **C96 (round trip), for files with circular references.** -/
theorem C96_round_trip_recursive_partial {stod : Bytes → UInt64} {lib : Lib} {files : List Bytes} {ms : List Module} {env : Fwd.Env} (hc : RTextCompiled stod lib files ms env) {mod : Module}
    {name : Name} {t : AType} (ha : SourceAssigned ⟨ms⟩ mod name t) :
    ∀ o x e, Ast.Spec.Value storable (qualify ⟨ms⟩) (qualifyModule ⟨ms⟩ mod) (qualifyType ⟨ms⟩ mod.name t) x → env.program.Rep ⟨mod.name, name, none⟩ o x e → e.length < 2 ^ 64 →
      ∀ buf, e.length ≤ buf.length → ∀ o0, env.program.Holds ⟨mod.name, name, none⟩ o0 → ∀ suffix,
        ∃ buf' o', Returns (env.program.encode ⟨mod.name, name, none⟩ o buf) (.ok (⟨true, e.length⟩, buf')) ∧
          Returns (env.program.decode ⟨mod.name, name, none⟩ o0 (buf'.take e.length ++ suffix)) (.ok (true, o')) ∧
          env.program.Rep ⟨mod.name, name, none⟩ o' x e ∧
          (Returns (env.program.equal ⟨mod.name, name, none⟩ o' o) (.ok true) ↔ Returns (env.program.equal ⟨mod.name, name, none⟩ o o) (.ok true)) := by
  have h2 := C82_round_trip_recursive_partial (rtext_compiled hc) (text_assigned hc.distinct ha)
  exact fun o x e hx => h2 o x e ((value_back (T := ⟨ms⟩) hc.distinct _ _ _ _ _).2 hx)

/-- **C96 (decoding), for files with circular references.** -/
theorem C96_decodes_recursive_partial {stod : Bytes → UInt64} {lib : Lib} {files : List Bytes} {ms : List Module} {env : Fwd.Env} (hc : RTextCompiled stod lib files ms env)
    (hb : NoBareChoice (qualify ⟨ms⟩)) {mod : Module} {name : Name} {t : AType} (ha : SourceAssigned ⟨ms⟩ mod name t) :
    ∀ x e, Encodes (definite readable) (qualify ⟨ms⟩) (qualifyModule ⟨ms⟩ mod) (qualifyType ⟨ms⟩ mod.name t) x e → e.length < 2 ^ 64 → ∀ suffix, Sane suffix →
      ∀ o0, env.program.Holds ⟨mod.name, name, none⟩ o0 →
        ∃ o' e', Returns (env.program.decode ⟨mod.name, name, none⟩ o0 (e ++ suffix)) (.ok (true, o')) ∧ env.program.Rep ⟨mod.name, name, none⟩ o' x e' := by
  have h2 := C82_decodes_recursive_partial (rtext_compiled hc) (noBareChoice_back hc.distinct hb) (text_assigned hc.distinct ha)
  exact fun x e hx => h2 x e ((encodes_back (T := ⟨ms⟩) hc.distinct _ _ _ _ _ _).2 hx)

end FastBer.Props
