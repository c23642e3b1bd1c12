import Verif.Proofs.SimEvolve
import Verif.Props.Evolve
import Verif.Props.RecursiveSource
/-!
# C100, from the text of the modules: programs made from different versions of a schema talk to each other

`C100_forward_partial` and `C100_backward_partial` start from the tree the passes of the compiler have made; here everything is said about the modules as they are written in files, and about both programs.
-/
namespace FastBer.Props
open FastBer Ast Ast.Spec FastBer.Spec Lexer Lexer.Spec Notation Parser

/-- The type `t'` of `mod'`, one of the modules `new`, is a later version of the type `t` of `mod`, one of the modules `old`. -/
def LaterText (added : List Slot → Prop) (old : List Module) (mod : Module) (t : AType) (new : List Module) (mod' : Module) (t' : AType) : Prop :=
  Later added (qualify ⟨old⟩) (qualify ⟨new⟩) (qualifyModule ⟨old⟩ mod) (qualifyType ⟨old⟩ mod.name t) (qualifyModule ⟨new⟩ mod') (qualifyType ⟨new⟩ mod'.name t')

/-- `y` is the part of the value `x` that the type `t` of `mod`, one of the modules `ms`, has components for. -/
def PartText (dropped : List Val → Prop) (ms : List Module) (mod : Module) (t : AType) (x y : Val) : Prop :=
  Part dropped (qualify ⟨ms⟩) (qualifyModule ⟨ms⟩ mod) (qualifyType ⟨ms⟩ mod.name t) x y

/-- `x` is a value of the type `t` of `mod`, one of the modules `ms`, whose simple values the library can read. -/
def ReadableText (ms : List Module) (mod : Module) (t : AType) (x : Val) : Prop :=
  Ast.Spec.Value readable (qualify ⟨ms⟩) (qualifyModule ⟨ms⟩ mod) (qualifyType ⟨ms⟩ mod.name t) x

/-- What the passes have made of an assigned type has the same later versions. -/
theorem front_versions {src out : Tree} (hp : PlainSource src) (hs : SupportedSource src) (hl : Legal (qualify src)) {fuel : Nat} (hf : frontEnd fuel src = .ok out)
    {mod : Module} {name : Name} {t : AType} (ha : SourceAssigned src mod name t) : ∃ mod' t', Supported out ∧ Legal out ∧ Assigned out mod' name t' ∧ mod'.name = mod.name ∧
      (NoBareChoice (qualify src) → NoBareChoice out) ∧
      (∀ added new m' u', Later added (qualify src) new (qualifyModule src mod) (qualifyType src mod.name t) m' u' → Later added out new mod' t' m' u') ∧
      (∀ dropped x y, Part dropped (qualify src) (qualifyModule src mod) (qualifyType src mod.name t) x y → Part dropped out mod' t' x y) := by
  obtain ⟨S, hS, hO⟩ := frontEnd_plain hp hf
  obtain ⟨a, ham, rfl, hb⟩ := ha.assignment
  obtain ⟨m2, u, h1, h2, h3, h4⟩ := hS.assigned ha.module ham hb (q := some mod.name) (m0 := mod) rfl
  obtain ⟨w', u', h5, h6⟩ := hO.corr.fwd (m2 := mod) ⟨rfl, rfl, rfl⟩ h3
  obtain ⟨h7, h8, a', h9, h10, h11⟩ := target_mem h5
  refine ⟨w', u', hO.supported (hS.supported hs), legal_stands hO.corr hO.stands (legal_stands hS.corr hS.stands hl),
    ⟨h7, ⟨a', h9, h10, h11⟩, fun hl => ha.tags (lost_source hS hO h4 h6 hl)⟩, h8, fun hb => noBareChoice_stands hO.corr hO.stands (noBareChoice_stands hS.corr hS.stands hb),
    fun added new m' u' h => ?_, fun dropped x y h => ?_⟩
  · exact h6.later hO.corr (h4.later hS.corr h)
  · exact h6.part hO.corr (h4.part hS.corr h)

theorem later_back {T new : Tree} (hd : DistinctNames T) {added : List Slot → Prop} {m m' : Module} {own : Name} {t t' : AType}
    (h : Later added (qualify T) new (qualifyModule T m) (qualifyType T own t) m' t') :
    Later added (qualify (backT T)) new (qualifyModule (backT T) (backM m)) (qualifyType (backT T) own t) m' t' := by
  rw [qualify_back, qualifyModule_back, qualifyType_back]
  exact (sim_back _ _ _).later (corr_back (distinct_qualify hd)) h

theorem part_back {T : Tree} (hd : DistinctNames T) {dropped : List Val → Prop} {m : Module} {own : Name} {t : AType} {x y : Val}
    (h : Part dropped (qualify T) (qualifyModule T m) (qualifyType T own t) x y) :
    Part dropped (qualify (backT T)) (qualifyModule (backT T) (backM m)) (qualifyType (backT T) own t) x y := by
  rw [qualify_back, qualifyModule_back, qualifyType_back]
  exact (sim_back _ _ _).part (corr_back (distinct_qualify hd)) h

theorem occurs_assigned {src : Tree} {mod : Module} {name : Name} {t : AType} (h : SourceAssigned src mod name t) :
    Occurs (qualify src) (qualifyModule src mod) (qualifyType src mod.name t) := by
  obtain ⟨a, h1, _, h3⟩ := h.assignment
  refine .assigned (a := { a with body := .type (qualifyType src mod.name t) }) (List.mem_map_of_mem h.module) ?_ rfl
  refine List.mem_map.2 ⟨a, h1, ?_⟩
  obtain ⟨n, b, ps⟩ := a
  cases h3
  rfl

/-- C100 (`_partial`), receiving from the future: a program made from the files in which the modules `ms` are written decodes every encoding (definite lengths, simple values the library can read) of a value of any
later version of a type, by whatever tool it was made, to the part of the value that the program's version has components for.  Missing: as in `C100_forward_partial`. -/
theorem C100_forward_text_partial {stod : Bytes → UInt64} {lib : Lib} {files : List Bytes} {ms : List Module} {env : Env} (hc : TextCompiled stod lib files ms env)
    (hb : NoBareChoice (qualify ⟨ms⟩)) {mod : Module} {name : Name} {t : AType} (ha : SourceAssigned ⟨ms⟩ mod name t)
    {ms' : List Module} (hn : Legal (qualify ⟨ms'⟩)) {mod' : Module} {name' : Name} {t' : AType} (ha' : SourceAssigned ⟨ms'⟩ mod' name' t')
    (hl : LaterText (fun _ => True) ms mod t ms' mod' t') :
    ∃ T, env.typeOf mod.name name = some T ∧
      ∀ x y e, Encodes (definite readable) (qualify ⟨ms'⟩) (qualifyModule ⟨ms'⟩ mod') (qualifyType ⟨ms'⟩ mod'.name t') x e → PartText (fun _ => True) ms mod t x y →
        e.length < 2 ^ 64 → ∀ suffix, Sane suffix → ∀ o0, T.Holds o0 → ∃ o' e', T.decode o0 (e ++ suffix) = .ok (true, o') ∧ T.Rep o' y e' := by
  have hs := text_compiled hc
  obtain ⟨fuel, hf⟩ := hs.output
  obtain ⟨out, hf, hg⟩ := Res.bind_eq_ok.1 hf
  obtain ⟨w, u, h1, h2, h3, h4, h5, h6, h7⟩ := front_versions hs.plain hs.supported hs.legal hf (text_assigned hc.distinct ha)
  obtain ⟨T, g1, g2⟩ := C100_forward_partial ⟨h1, h2, hc.defaults, fuel, hg⟩ (h5 (noBareChoice_back hc.distinct hb)) h3 hn (occurs_assigned ha')
    (h6 _ _ _ _ (later_back (T := ⟨ms⟩) hc.distinct hl))
  rw [h4] at g1
  exact ⟨T, g1, fun x y e he hp => g2 x y e he (h7 _ _ _ (part_back (T := ⟨ms⟩) hc.distinct hp))⟩

/-- C100 (`_partial`), receiving from the past: if all that was added to types with extension markers may be absent, a program made from the later version decodes every encoding of every value of the older version to a value
that has what the older version had, and whose other components are absent.  Missing: as in `C100_backward_partial`. -/
theorem C100_backward_text_partial {stod : Bytes → UInt64} {lib : Lib} {files : List Bytes} {ms' : List Module} {env : Env} (hc : TextCompiled stod lib files ms' env)
    (hb : NoBareChoice (qualify ⟨ms'⟩)) {mod' : Module} {name : Name} {t' : AType} (ha : SourceAssigned ⟨ms'⟩ mod' name t')
    {ms : List Module} {mod : Module} {t : AType} (hl : LaterText MayBeLeftOut ms mod t ms' mod' t') :
    ∃ T, env.typeOf mod'.name name = some T ∧
      ∀ y e, Encodes (definite readable) (qualify ⟨ms⟩) (qualifyModule ⟨ms⟩ mod) (qualifyType ⟨ms⟩ mod.name t) y e → e.length < 2 ^ 64 → ∀ suffix, Sane suffix → ∀ o0, T.Holds o0 →
        ∃ o' x e', T.decode o0 (e ++ suffix) = .ok (true, o') ∧ T.Rep o' x e' ∧ PartText NothingIn ms mod t x y := by
  obtain ⟨T, hT, h⟩ := C96_decodes_partial hc hb ha
  refine ⟨T, hT, fun y e he hlen suffix hs o0 h0 => ?_⟩
  obtain ⟨x, hp, hx⟩ := Evo.encodes_later he _ _ hl
  obtain ⟨o', e', h1, h2⟩ := h x e hx hlen suffix hs o0 h0
  exact ⟨o', x, e', h1, h2, hp⟩

/-- C100 (`_partial`), both programs: what a program made from the later version writes, one made from the older version reads: the object then holds the part of the value that its version has components for. -/
theorem C100_new_to_old_partial {stod stod' : Bytes → UInt64} {lib lib' : Lib} {files files' : List Bytes} {ms ms' : List Module} {env env' : Env}
    (hc : TextCompiled stod lib files ms env) (hb : NoBareChoice (qualify ⟨ms⟩)) {mod : Module} {name : Name} {t : AType} (ha : SourceAssigned ⟨ms⟩ mod name t)
    (hc' : TextCompiled stod' lib' files' ms' env') {mod' : Module} {name' : Name} {t' : AType} (ha' : SourceAssigned ⟨ms'⟩ mod' name' t')
    (hl : LaterText (fun _ => True) ms mod t ms' mod' t') :
    ∃ T T', env.typeOf mod.name name = some T ∧ env'.typeOf mod'.name name' = some T' ∧
      ∀ o x e, T'.Rep o x e → T'.Fresh o → ReadableText ms' mod' t' x → ∀ y, PartText (fun _ => True) ms mod t x y → e.length < 2 ^ 64 →
        ∀ buf, e.length ≤ buf.length → ∃ buf', T'.encode o buf = .ok (⟨true, e.length⟩, buf') ∧
          ∀ suffix, Sane suffix → ∀ o0, T.Holds o0 → ∃ o' e', T.decode o0 (buf'.take e.length ++ suffix) = .ok (true, o') ∧ T.Rep o' y e' := by
  obtain ⟨T, h1, h2⟩ := C100_forward_text_partial hc hb ha hc'.legal ha' hl
  obtain ⟨T', g1, g2, -⟩ := C96_encodes_partial hc' ha'
  refine ⟨T, T', h1, g1, fun o x e hr hf hv y hp hlen buf hbuf => ?_⟩
  obtain ⟨buf', k1, k2⟩ := (g2 o x e hr hf hlen).2 buf hbuf
  refine ⟨buf', k1, fun suffix hs o0 h0 => ?_⟩
  have hlen' : (buf'.take e.length).length < 2 ^ 64 := by
    have := List.length_take_le e.length buf'
    omega
  exact h2 x y _ (encodes_definite hv hlen' k2) hp hlen' suffix hs o0 h0

/-- C100 (`_partial`), both programs: what a program made from the older version writes, one made from the later version reads, if all that was added may be absent; it is absent then. -/
theorem C100_old_to_new_partial {stod stod' : Bytes → UInt64} {lib lib' : Lib} {files files' : List Bytes} {ms ms' : List Module} {env env' : Env}
    (hc : TextCompiled stod lib files ms env) {mod : Module} {name : Name} {t : AType} (ha : SourceAssigned ⟨ms⟩ mod name t)
    (hc' : TextCompiled stod' lib' files' ms' env') (hb : NoBareChoice (qualify ⟨ms'⟩)) {mod' : Module} {name' : Name} {t' : AType} (ha' : SourceAssigned ⟨ms'⟩ mod' name' t')
    (hl : LaterText MayBeLeftOut ms mod t ms' mod' t') :
    ∃ T T', env.typeOf mod.name name = some T ∧ env'.typeOf mod'.name name' = some T' ∧
      ∀ o y e, T.Rep o y e → T.Fresh o → ReadableText ms mod t y → e.length < 2 ^ 64 →
        ∀ buf, e.length ≤ buf.length → ∃ buf', T.encode o buf = .ok (⟨true, e.length⟩, buf') ∧
          ∀ suffix, Sane suffix → ∀ o0, T'.Holds o0 → ∃ o' x e', T'.decode o0 (buf'.take e.length ++ suffix) = .ok (true, o') ∧ T'.Rep o' x e' ∧ PartText NothingIn ms mod t x y := by
  obtain ⟨T', h1, h2⟩ := C100_backward_text_partial hc' hb ha' hl
  obtain ⟨T, g1, g2, -⟩ := C96_encodes_partial hc ha
  refine ⟨T, T', g1, h1, fun o y e hr hf hv hlen buf hbuf => ?_⟩
  obtain ⟨buf', k1, k2⟩ := (g2 o y e hr hf hlen).2 buf hbuf
  refine ⟨buf', k1, fun suffix hs o0 h0 => ?_⟩
  have hlen' : (buf'.take e.length).length < 2 ^ 64 := by
    have := List.length_take_le e.length buf'
    omega
  exact h2 y _ (encodes_definite hv hlen' k2) hlen' suffix hs o0 h0

/-! ## Files with circular references -/

/-- C100 (`_partial`), both programs, for files with circular references: what a program made from the later version writes, one made from the older version reads. -/
theorem C100_new_to_old_recursive_partial {stod stod' : Bytes → UInt64} {lib lib' : Lib} {files files' : List Bytes} {ms ms' : List Module} {env env' : Fwd.Env}
    (hc : RTextCompiled stod lib files ms env) (hb : NoBareChoice (qualify ⟨ms⟩)) {mod : Module} {name : Name} {t : AType} (ha : SourceAssigned ⟨ms⟩ mod name t)
    (hc' : RTextCompiled stod' lib' files' ms' env') {mod' : Module} {name' : Name} {t' : AType} (ha' : SourceAssigned ⟨ms'⟩ mod' name' t')
    (hl : LaterText (fun _ => True) ms mod t ms' mod' t') :
    ∀ o x e, env'.program.RepFresh ⟨mod'.name, name', none⟩ o x e → ReadableText ms' mod' t' x → ∀ y, PartText (fun _ => True) ms mod t x y → e.length < 2 ^ 64 →
      ∀ buf, e.length ≤ buf.length → ∃ buf', Returns (env'.program.encode ⟨mod'.name, name', none⟩ o buf) (.ok (⟨true, e.length⟩, buf')) ∧
        ∀ suffix, Sane suffix → ∀ o0, env.program.Holds ⟨mod.name, name, none⟩ o0 →
          ∃ o' e', Returns (env.program.decode ⟨mod.name, name, none⟩ o0 (buf'.take e.length ++ suffix)) (.ok (true, o')) ∧ env.program.Rep ⟨mod.name, name, none⟩ o' y e' := by
  obtain ⟨-, g2, -⟩ := C96_encodes_recursive_partial hc' ha'
  intro o x e hr hv y hp hlen buf hbuf
  obtain ⟨buf', k1, k2⟩ := (g2 o x e hr hlen).2 buf hbuf
  refine ⟨buf', k1, fun suffix hsuf o0 h0 => ?_⟩
  have hlen' : (buf'.take e.length).length < 2 ^ 64 := by
    have := List.length_take_le e.length buf'
    omega
  have hs := rtext_compiled hc
  obtain ⟨fuel, hf⟩ := hs.output
  obtain ⟨out, hf, hg⟩ := Res.bind_eq_ok.1 hf
  obtain ⟨w, u, h1, h2, h3, h4, h5, h6, h7⟩ := front_versions hs.plain hs.supported hs.legal hf (text_assigned hc.distinct ha)
  have := C100_forward_recursive_partial ⟨h1, h2, hc.defaults, ⟨fuel, hg⟩, hc.constructible⟩ (h5 (noBareChoice_back hc.distinct hb)) h3 hc'.legal (occurs_assigned ha')
    (h6 _ _ _ _ (later_back (T := ⟨ms⟩) hc.distinct hl))
  rw [h4] at this
  exact this x y _ (encodes_definite hv hlen' k2) (h7 _ _ _ (part_back (T := ⟨ms⟩) hc.distinct hp)) hlen' suffix hsuf o0 h0

/-- C100 (`_partial`), both programs, for files with circular references: what a program made from the older version writes, one made from the later version reads, if all that was added may be absent. -/
theorem C100_old_to_new_recursive_partial {stod stod' : Bytes → UInt64} {lib lib' : Lib} {files files' : List Bytes} {ms ms' : List Module} {env env' : Fwd.Env}
    (hc : RTextCompiled stod lib files ms env) {mod : Module} {name : Name} {t : AType} (ha : SourceAssigned ⟨ms⟩ mod name t)
    (hc' : RTextCompiled stod' lib' files' ms' env') (hb : NoBareChoice (qualify ⟨ms'⟩)) {mod' : Module} {name' : Name} {t' : AType} (ha' : SourceAssigned ⟨ms'⟩ mod' name' t')
    (hl : LaterText MayBeLeftOut ms mod t ms' mod' t') :
    ∀ o y e, env.program.RepFresh ⟨mod.name, name, none⟩ o y e → ReadableText ms mod t y → e.length < 2 ^ 64 →
      ∀ buf, e.length ≤ buf.length → ∃ buf', Returns (env.program.encode ⟨mod.name, name, none⟩ o buf) (.ok (⟨true, e.length⟩, buf')) ∧
        ∀ suffix, Sane suffix → ∀ o0, env'.program.Holds ⟨mod'.name, name', none⟩ o0 →
          ∃ o' x e', Returns (env'.program.decode ⟨mod'.name, name', none⟩ o0 (buf'.take e.length ++ suffix)) (.ok (true, o')) ∧ env'.program.Rep ⟨mod'.name, name', none⟩ o' x e' ∧
            PartText NothingIn ms mod t x y := by
  obtain ⟨-, g2, -⟩ := C96_encodes_recursive_partial hc ha
  intro o y e hr hv hlen buf hbuf
  obtain ⟨buf', k1, k2⟩ := (g2 o y e hr hlen).2 buf hbuf
  refine ⟨buf', k1, fun suffix hs o0 h0 => ?_⟩
  have hlen' : (buf'.take e.length).length < 2 ^ 64 := by
    have := List.length_take_le e.length buf'
    omega
  obtain ⟨x, hp, hx⟩ := Evo.encodes_later (encodes_definite hv hlen' k2) _ _ hl
  obtain ⟨o', e', h1, h2⟩ := C96_decodes_recursive_partial hc' hb ha' x _ hx hlen' suffix hs o0 h0
  exact ⟨o', x, e', h1, h2, hp⟩

/-! ## Two files that meet the conditions -/

/-- The file as it was, -/
def oldFile : String := "M DEFINITIONS IMPLICIT TAGS ::= BEGIN S ::= SEQUENCE { a INTEGER , c SET { n NULL , ... } , ... } END "
def oldItems : List Tok := [.upper ['M'], kw "DEFINITIONS", kw "IMPLICIT", kw "TAGS", kw "::=", kw "BEGIN", .upper ['S'], kw "::=", kw "SEQUENCE", kw "{", .lower ['a'], kw "INTEGER", kw ",",
  .lower ['c'], kw "SET", kw "{", .lower ['n'], kw "NULL", kw ",", kw "...", kw "}", kw ",", kw "...", kw "}", kw "END"]
def oldS : AType := .sequence [required "a" (.leaf .integer), required "c" (.set [required "n" (.leaf .null)] true)] true
def oldModules : List Module := [⟨"M", .implicit, [], [{ name := "S", body := .type oldS }]⟩]

/-- and as it is now. -/
def newFile : String := "M DEFINITIONS IMPLICIT TAGS ::= BEGIN S ::= SEQUENCE { a INTEGER , c SET { n NULL , ... , m BOOLEAN OPTIONAL } , ... , b [ 5 ] BOOLEAN OPTIONAL } END "
def newItems : List Tok := [.upper ['M'], kw "DEFINITIONS", kw "IMPLICIT", kw "TAGS", kw "::=", kw "BEGIN", .upper ['S'], kw "::=", kw "SEQUENCE", kw "{", .lower ['a'], kw "INTEGER", kw ",",
  .lower ['c'], kw "SET", kw "{", .lower ['n'], kw "NULL", kw ",", kw "...", kw ",", .lower ['m'], kw "BOOLEAN", kw "OPTIONAL", kw "}", kw ",", kw "...", kw ",",
  .lower ['b'], kw "[", .number 5, kw "]", kw "BOOLEAN", kw "OPTIONAL", kw "}", kw "END"]
def newS : AType := .sequence [required "a" (.leaf .integer), required "c" (.set [required "n" (.leaf .null), optional "m" (.leaf .boolean)] true),
  optional "b" (.prefixed .contextSpecific 5 .automatic (.leaf .boolean))] true
def newModules : List Module := [⟨"M", .implicit, [], [{ name := "S", body := .type newS }]⟩]

theorem old_written (stod : Bytes → UInt64) : Written stod [bytes oldFile] oldModules := by
  have hset := TypeN.set (.extensible (.one (ComponentN.required ['n'] (.null (real := stod)))))
  have ha := ComponentN.required ['a'] (.simple (real := stod) (ks := ["INTEGER"]) (k := .integer) (by simp [simpleTypes]))
  have hs := TypeN.sequence (.extensible (.more (.one ha) (ComponentN.required ['c'] hset)))
  have hm := FileN.one (.full (o := []) (e := []) (i := []) ['M'] .nothing .implicit .nothing .nothing (.one (.type ['S'] hs)))
  have t1 : Text oldItems (bytes oldFile) := by
    have e : bytes oldFile = itemsText oldItems := by decide +kernel
    rw [e]
    exact itemsText_sound (by decide +kernel)
  exact .cons t1 hm .nil

theorem new_written (stod : Bytes → UInt64) : Written stod [bytes newFile] newModules := by
  have hb := ComponentN.optional ['m'] (.simple (real := stod) (ks := ["BOOLEAN"]) (k := .boolean) (by simp [simpleTypes]))
  have hset := TypeN.set (.extended (.one (ComponentN.required ['n'] (.null (real := stod)))) (.one hb))
  have ha := ComponentN.required ['a'] (.simple (real := stod) (ks := ["INTEGER"]) (k := .integer) (by simp [simpleTypes]))
  have hr := ComponentN.optional ['b'] (.tagged 5 .context (by decide) .default (.simple (real := stod) (ks := ["BOOLEAN"]) (k := .boolean) (by simp [simpleTypes])))
  have hs := TypeN.sequence (.extended (.more (.one ha) (ComponentN.required ['c'] hset)) (.one hr))
  have hm := FileN.one (.full (o := []) (e := []) (i := []) ['M'] .nothing .implicit .nothing .nothing (.one (.type ['S'] hs)))
  have t1 : Text newItems (bytes newFile) := by
    have e : bytes newFile = itemsText newItems := by decide +kernel
    rw [e]
    exact itemsText_sound (by decide +kernel)
  exact .cons t1 hm .nil

/-- What the passes make of them. -/
def oldOut : Tree := ⟨[⟨"M", .implicit, [], [{ name := "S", body := .type oldS }]⟩]⟩
def newOut : Tree := ⟨[⟨"M", .implicit, [], [{ name := "S", body := .type newS }]⟩]⟩

theorem old_frontEnd : frontEnd 20 (backT ⟨oldModules⟩) = .ok oldOut := by rfl
theorem new_frontEnd : frontEnd 20 (backT ⟨newModules⟩) = .ok newOut := by rfl

theorem old_compiles (stod : Bytes → UInt64) : ∃ env, TextCompiled stod demoLib [bytes oldFile] oldModules env := by
  have : ∃ env, generate demoLib 20 oldOut = .ok env := ⟨_, rfl⟩
  obtain ⟨env, h2⟩ := this
  refine ⟨env, ⟨old_written stod, by decide +kernel, Check.plainSource_sound (by decide +kernel), Check.supportedSource_sound (fuel := 20) (by decide +kernel),
    Check.legal_sound (fuel := 20) (by decide +kernel), demoLib_defaults, 20, ?_⟩⟩
  rw [C96_compile (old_written stod)]
  exact Res.bind_eq_ok.2 ⟨_, old_frontEnd, h2⟩

theorem new_compiles (stod : Bytes → UInt64) : ∃ env, TextCompiled stod demoLib [bytes newFile] newModules env := by
  have : ∃ env, generate demoLib 20 newOut = .ok env := ⟨_, rfl⟩
  obtain ⟨env, h2⟩ := this
  refine ⟨env, ⟨new_written stod, by decide +kernel, Check.plainSource_sound (by decide +kernel), Check.supportedSource_sound (fuel := 20) (by decide +kernel),
    Check.legal_sound (fuel := 20) (by decide +kernel), demoLib_defaults, 20, ?_⟩⟩
  rw [C96_compile (new_written stod)]
  exact Res.bind_eq_ok.2 ⟨_, new_frontEnd, h2⟩

theorem oldS_assigned : SourceAssigned ⟨oldModules⟩ oldModules[0] "S" oldS where
  module := List.mem_cons_self
  assignment := ⟨_, List.mem_cons_self, rfl, rfl⟩
  tags := Check.taggedStruct_sound 5 _ _ rfl

theorem newS_assigned : SourceAssigned ⟨newModules⟩ newModules[0] "S" newS where
  module := List.mem_cons_self
  assignment := ⟨_, List.mem_cons_self, rfl, rfl⟩
  tags := Check.taggedStruct_sound 5 _ _ rfl

theorem S_later {added : List Slot → Prop} (h : ∀ ss, MayBeLeftOut ss → added ss) : LaterText added oldModules oldModules[0] oldS newModules newModules[0] newS := by
  have ot : ∀ {m t ts}, Check.ownTags (qualify ⟨oldModules⟩) 9 m t = some ts → OwnTags (qualify ⟨oldModules⟩) m t ts := fun h => Check.ownTags_sound 9 _ _ _ h
  have nt : ∀ {m t ts}, Check.ownTags (qualify ⟨newModules⟩) 9 m t = some ts → OwnTags (qualify ⟨newModules⟩) m t ts := fun h => Check.ownTags_sound 9 _ _ _ h
  have oc : ∀ {m t w u}, Check.core (qualify ⟨oldModules⟩) 9 m t = some (w, u) → Core (qualify ⟨oldModules⟩) m t w u := fun h => Check.core_sound 9 _ _ _ _ h
  have nc : ∀ {m t w u}, Check.core (qualify ⟨newModules⟩) 9 m t = some (w, u) → Core (qualify ⟨newModules⟩) m t w u := fun h => Check.core_sound 9 _ _ _ _ h
  have st : ∀ {m t m' t' ts w u w' u'}, OwnTags (qualify ⟨oldModules⟩) m t ts → OwnTags (qualify ⟨newModules⟩) m' t' ts → Core (qualify ⟨oldModules⟩) m t w u →
      Core (qualify ⟨newModules⟩) m' t' w' u' → LaterOf added (Later added (qualify ⟨oldModules⟩) (qualify ⟨newModules⟩)) w u w' u' →
      Later added (qualify ⟨oldModules⟩) (qualify ⟨newModules⟩) m t m' t' := fun h1 h2 h3 h4 h5 => Evo.later_of ⟨_, _, _, _, _, h1, h2, h3, h4, h5⟩
  refine st (ot rfl) (nt rfl) (oc rfl) (nc rfl) (.sequence (.cons ?_ (.cons ?_ (.more (h _ ?_)))))
  · exact st (ot rfl) (nt rfl) (oc rfl) (nc rfl) (.leaf _ _ _)
  · refine st (ot rfl) (nt rfl) (oc rfl) (nc rfl) (.set (.cons ?_ (.more (h _ ?_))))
    · exact st (ot rfl) (nt rfl) (oc rfl) (nc rfl) (.leaf _ _ _)
    · intro s hs
      cases List.mem_singleton.1 hs
      rfl
  · intro s hs
    cases List.mem_singleton.1 hs
    rfl

/-- So the two programs understand each other. -/
example (stod : Bytes → UInt64) : ∃ (env env' : Env) (T T' : Ty), env.typeOf "M" "S" = some T ∧ env'.typeOf "M" "S" = some T' ∧
    (∀ o x e, T'.Rep o x e → T'.Fresh o → ReadableText newModules newModules[0] newS x → ∀ y, PartText (fun _ => True) oldModules oldModules[0] oldS x y → e.length < 2 ^ 64 →
      ∀ buf, e.length ≤ buf.length → ∃ buf', T'.encode o buf = .ok (⟨true, e.length⟩, buf') ∧
        ∀ suffix, Sane suffix → ∀ o0, T.Holds o0 → ∃ o' e', T.decode o0 (buf'.take e.length ++ suffix) = .ok (true, o') ∧ T.Rep o' y e') ∧
    ∀ o y e, T.Rep o y e → T.Fresh o → ReadableText oldModules oldModules[0] oldS y → e.length < 2 ^ 64 →
      ∀ buf, e.length ≤ buf.length → ∃ buf', T.encode o buf = .ok (⟨true, e.length⟩, buf') ∧
        ∀ suffix, Sane suffix → ∀ o0, T'.Holds o0 → ∃ o' x e', T'.decode o0 (buf'.take e.length ++ suffix) = .ok (true, o') ∧ T'.Rep o' x e' ∧ PartText NothingIn oldModules oldModules[0] oldS x y := by
  obtain ⟨env, hc⟩ := old_compiles stod
  obtain ⟨env', hc'⟩ := new_compiles stod
  have hb : NoBareChoice (qualify ⟨oldModules⟩) := Check.noBareChoice_sound (fuel := 20) (by decide +kernel)
  have hb' : NoBareChoice (qualify ⟨newModules⟩) := Check.noBareChoice_sound (fuel := 20) (by decide +kernel)
  obtain ⟨T, T', h1, h2, h3⟩ := C100_new_to_old_partial hc hb oldS_assigned hc' newS_assigned (S_later fun _ _ => trivial)
  obtain ⟨T1, T1', g1, g2, g3⟩ := C100_old_to_new_partial hc oldS_assigned hc' hb' newS_assigned (S_later fun _ h => h)
  cases h1.symm.trans g1
  cases h2.symm.trans g2
  exact ⟨env, env', T, T', h1, h2, h3, g3⟩

end FastBer.Props
