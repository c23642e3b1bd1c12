import Verif.Props.Parser
import Verif.Proofs.Backwards
/-!
# C96: from the text of the modules to the octets

C82 starts from the parsed schema; here everything is said about the files themselves.
-/
namespace FastBer.Props
open FastBer Ast Ast.Spec FastBer.Spec Lexer Lexer.Spec Notation Parser

/-- The modules `ms` are written in the files; the compiler accepts the files and a C++ compiler accepts its output, whose types are those of `env`; the modules obey the restrictions of
`Spec/Source.lean` and `Spec/SupportedSource.lean` and the rules of X.680 on tags and names; the C++ objects for DEFAULT values, which are not modelled, are objects of their types. -/
structure TextCompiled (stod : Bytes → UInt64) (lib : Lib) (files : List Bytes) (ms : List Module) (env : Env) : Prop where
  written : Written stod files ms
  distinct : ∀ m ∈ ms, m.assignments.Pairwise fun a b => a.name ≠ b.name
  plain : PlainSource ⟨ms⟩
  supported : SupportedSource ⟨ms⟩
  legal : Legal (qualify ⟨ms⟩)
  defaults : ∀ T v d, lib.default T v = some d → T.Holds d
  output : ∃ fuel, compileFiles stod lib fuel files = .ok env

/-- **C96.** The compiler makes of the files what it makes of the modules written in them, with the assignments of each module in reverse order, which have no order. -/
theorem C96_compile {stod : Bytes → UInt64} {files : List Bytes} {ms : List Module} (h : Written stod files ms) (lib : Lib) (fuel : Nat) :
    compileFiles stod lib fuel files = compile lib fuel ⟨ms.map fun m => { m with assignments := m.assignments.reverse }⟩ := by
  unfold compileFiles
  rw [C92_files h]
  rfl

theorem parseFiles_each {stod : Bytes → UInt64} : ∀ {files : List Bytes} {st st' : St}, parseFiles stod files st = .ok (some st') →
    ∀ file ∈ files, ∃ ts st1 v st2, lex file = .ok (some ts) ∧ Parses stod Sym.ModuleDefinitionList ts st1 v st2
  | [], _, _, _, _, h => by cases h
  | f :: fs, st, st', h, file, hf => by
    unfold parseFiles parseFile at h
    cases hl : lex f with
    | ub => rw [hl] at h; cases h
    | loop => rw [hl] at h; cases h
    | ok r =>
      rw [hl] at h
      cases r with
      | none => cases h
      | some ts =>
        obtain ⟨r, hr⟩ := C93_total stod ts st
        have hp : parse stod ts st = .ok r := hr
        change (parse stod ts st >>= _) = _ at h
        rw [hp] at h
        cases r with
        | none => cases h
        | some st1 =>
          rcases List.mem_cons.1 hf with rfl | hf
          · obtain ⟨v, hv⟩ := C94_grammar hp
            exact ⟨ts, st, v, st1, hl, hv⟩
          · exact parseFiles_each h file hf

/-- **C96 (errors).** Code is generated only if every file is, after the lexer, derived by the grammar from `ModuleDefinitionList`; and then it is that of the modules read. -/
theorem C96_rejects {stod : Bytes → UInt64} {lib : Lib} {fuel : Nat} {files : List Bytes} {env : Env} (h : compileFiles stod lib fuel files = .ok env) :
    (∀ file ∈ files, ∃ ts st v st', lex file = .ok (some ts) ∧ Parses stod Sym.ModuleDefinitionList ts st v st') ∧
    ∃ st, parseFiles stod files ⟨[], 0⟩ = .ok (some st) ∧ compile lib fuel ⟨st.modules⟩ = .ok env := by
  unfold compileFiles at h
  split at h
  · rename_i st hst
    exact ⟨parseFiles_each hst, st, hst, h⟩
  · cases h
  · cases h
  · cases h

theorem text_compiled {stod : Bytes → UInt64} {lib : Lib} {files : List Bytes} {ms : List Module} {env : Env} (h : TextCompiled stod lib files ms env) :
    SourceCompiled lib (backT ⟨ms⟩) env where
  plain := plain_back h.plain
  supported := supported_back h.distinct h.supported
  legal := legal_back h.distinct h.legal
  defaults := h.defaults
  output := by
    obtain ⟨fuel, hf⟩ := h.output
    rw [C96_compile h.written] at hf
    exact ⟨fuel, hf⟩

theorem text_assigned {ms : List Module} (hd : ∀ m ∈ ms, m.assignments.Pairwise fun a b => a.name ≠ b.name) {mod : Module} {name : Name} {t : AType}
    (h : SourceAssigned ⟨ms⟩ mod name t) : SourceAssigned (backT ⟨ms⟩) (backM mod) name t where
  module := mem_backT h.module
  assignment := by
    obtain ⟨a, h1, h2⟩ := h.assignment
    exact ⟨a, List.mem_reverse.2 h1, h2⟩
  tags := fun ht => h.tags (taggedStruct_unback (T := ⟨ms⟩) hd ht)

/-- **C96 (encoding).** There is a C++ type for every type assigned in the files; its objects hold values of the ASN.1 type; `encode` into a buffer that is large enough writes an X.690
encoding of the value an object holds (strings must have been assigned, not decoded); and every value of the type whose simple values have room in the library can be held by such an object.
Missing, because it is false: notation that is not in `Spec/Notation.lean` (`C92_violated_*`) and the modules excluded by `TextCompiled` and `SourceAssigned` (`C76_violated_*`,
`C79_violated_*`, `C82_violated_*`). -/
theorem C96_encodes_partial {stod : Bytes → UInt64} {lib : Lib} {files : List Bytes} {ms : List Module} {env : Env} (hc : TextCompiled stod lib files ms env) {mod : Module}
    {name : Name} {t : AType} (ha : SourceAssigned ⟨ms⟩ mod name t) :
    ∃ T, env.typeOf mod.name name = some T ∧
      (∀ o x e, T.Rep o x e → T.Fresh o → e.length < 2 ^ 64 → Ast.Spec.Value holdable (qualify ⟨ms⟩) (qualifyModule ⟨ms⟩ mod) (qualifyType ⟨ms⟩ mod.name t) x ∧
        ∀ buf, e.length ≤ buf.length → ∃ buf', T.encode o buf = .ok (⟨true, e.length⟩, buf') ∧
          Encodes (shortest holdable) (qualify ⟨ms⟩) (qualifyModule ⟨ms⟩ mod) (qualifyType ⟨ms⟩ mod.name t) x (buf'.take e.length)) ∧
      ∀ x, Ast.Spec.Value storable (qualify ⟨ms⟩) (qualifyModule ⟨ms⟩ mod) (qualifyType ⟨ms⟩ mod.name t) x → ∃ o e, T.Rep o x e ∧ T.Fresh o := by
  obtain ⟨T, h1, h2, h3⟩ := C82_encodes_partial (text_compiled hc) (text_assigned hc.distinct ha)
  refine ⟨T, h1, fun o x e hr hf hl => ?_, fun x hx => h3 x ((value_back (T := ⟨ms⟩) hc.distinct _ _ _ _ _).2 hx)⟩
  obtain ⟨g1, g2⟩ := h2 o x e hr hf hl
  refine ⟨(value_back (T := ⟨ms⟩) hc.distinct _ _ _ _ _).1 g1, fun buf hb => ?_⟩
  obtain ⟨buf', k1, k2⟩ := g2 buf hb
  exact ⟨buf', k1, (encodes_back (T := ⟨ms⟩) hc.distinct _ _ _ _ _ _).1 k2⟩

/-- **C96 (round trip).** A value that was encoded is decoded again: whatever follows the octets, and whatever the target object held before, decoding succeeds and the target then
holds the same value of the ASN.1 type and compares equal to the object encoded, if that equals itself. -/
theorem C96_round_trip_partial {stod : Bytes → UInt64} {lib : Lib} {files : List Bytes} {ms : List Module} {env : Env} (hc : TextCompiled stod lib files ms env) {mod : Module}
    {name : Name} {t : AType} (ha : SourceAssigned ⟨ms⟩ mod name t) :
    ∃ T, env.typeOf mod.name name = some T ∧
      ∀ o x e, Ast.Spec.Value storable (qualify ⟨ms⟩) (qualifyModule ⟨ms⟩ mod) (qualifyType ⟨ms⟩ mod.name t) x → T.Rep o x e → e.length < 2 ^ 64 →
        ∀ buf r buf', T.encode o buf = .ok (r, buf') → r.success = true → ∀ o0, T.Holds o0 → ∀ suffix,
          ∃ o', T.decode o0 (buf'.take r.length ++ suffix) = .ok (true, o') ∧ T.Rep o' x e ∧ (T.equal o' o = .ok true ↔ T.equal o o = .ok true) := by
  obtain ⟨T, h1, h2⟩ := C82_round_trip_partial (text_compiled hc) (text_assigned hc.distinct ha)
  exact ⟨T, h1, fun o x e hx => h2 o x e ((value_back (T := ⟨ms⟩) hc.distinct _ _ _ _ _).2 hx)⟩

/-- **C96 (decoding).** Every X.690 encoding of a value of the ASN.1 type with definite lengths (of up to eight octets, in any form, SET components in any order) whose simple values the
library can read is decoded, whatever follows it that does not overflow a header (`Sane`) and whatever the target held before, to that value. -/
theorem C96_decodes_partial {stod : Bytes → UInt64} {lib : Lib} {files : List Bytes} {ms : List Module} {env : Env} (hc : TextCompiled stod lib files ms env)
    (hb : NoBareChoice (qualify ⟨ms⟩)) {mod : Module} {name : Name} {t : AType} (ha : SourceAssigned ⟨ms⟩ mod name t) :
    ∃ T, env.typeOf mod.name name = some T ∧
      ∀ x e, Encodes (definite readable) (qualify ⟨ms⟩) (qualifyModule ⟨ms⟩ mod) (qualifyType ⟨ms⟩ mod.name t) x e → e.length < 2 ^ 64 → ∀ suffix, Sane suffix → ∀ o0, T.Holds o0 →
        ∃ o' e', T.decode o0 (e ++ suffix) = .ok (true, o') ∧ T.Rep o' x e' := by
  obtain ⟨T, h1, h2⟩ := C82_decodes_partial (text_compiled hc) (noBareChoice_back hc.distinct hb) (text_assigned hc.distinct ha)
  exact ⟨T, h1, fun x e hx => h2 x e ((encodes_back (T := ⟨ms⟩) hc.distinct _ _ _ _ _ _).2 hx)⟩

/-! ## Files that meet the conditions -/

theorem spaced {t : Tok} {x : Bytes} (h : Item t x) (r : Bytes) : Ends t (0x20 :: r) := by
  have hd : ∀ P : UInt8 → Prop, ¬ P 0x20 → NotNext P (0x20 :: r) := fun P hp => notNext_head rfl hp
  cases h with
  | word | symbol =>
    rw [Ends]
    split
    · exact ⟨fun _ s h => by simp at h, fun _ => hd _ (by decide), fun _ => hd _ (by unfold Digit; decide)⟩
    · first | exact ends_space | exact ⟨fun _ s h => by simp at h, fun _ => hd _ (by decide), fun _ => hd _ (by unfold Digit; decide)⟩
  | typeReference | identifier | typeField | valueField => exact ends_space
  | number => exact ⟨hd _ (by unfold Digit; decide), fun s h => by simp at h⟩
  | negative | real => exact hd _ (by unfold Digit; decide)
  | cstring => exact hd _ (by decide)
  | bstring | hstring => trivial

/-- Items with a space behind each. -/
theorem spaced_text : ∀ {l : List (Tok × Bytes)}, (∀ p ∈ l, Item p.1 p.2) → Text (l.map (·.1)) (l.flatMap fun p => p.2 ++ [0x20])
  | [], _ => .nil
  | (t, x) :: l, h => by
    have h1 := space_text (spaced_text (l := l) fun p hp => h p (List.mem_cons_of_mem _ hp))
    have h2 : Item t x := h (t, x) List.mem_cons_self
    have := Text.item h2 (spaced h2 _) h1
    simpa using this

/-- An item of one of the kinds in the files below. -/
def textItem : Tok → Option Bytes
  | .sym k => if k ∈ itemSymbols ∨ (k ∈ reservedWords ∧ k ∉ misspelt) then some (nameText k.toList) else none
  | .upper [c] => if 'A' ≤ c ∧ c ≤ 'Z' then some (nameText [c]) else none
  | .lower [c] => if 'a' ≤ c ∧ c ≤ 'z' then some (nameText [c]) else none
  | .number (.ofNat n) => if n < 10 then some [UInt8.ofNat (0x30 + n)] else none
  | _ => none

theorem sanitized {c : Char} (h : c ≠ '-') : Names.santizeName [c] = [c] := by
  unfold Names.santizeName Names.hyphens
  have : Names.reservedKeywords.contains [c] = false := by
    have hl : ∀ k ∈ Names.reservedKeywords, k.length ≠ 1 := by decide +kernel
    rw [← Bool.not_eq_true, List.contains_iff_mem]
    exact fun hm => hl _ hm rfl
  simp only [List.map_cons, List.map_nil, if_neg h]
  rw [this]; rfl

theorem textItem_sound {t : Tok} {x : Bytes} (h : textItem t = some x) : Item t x := by
  unfold textItem at h
  split at h
  · split at h
    · rename_i hk
      cases h
      rcases hk with hk | hk
      · exact .symbol hk
      · exact .word hk.1 hk.2
    · cases h
  · split at h
    · rename_i c hc
      cases h
      have e := sanitized (c := c) (by rintro rfl; exact absurd hc (by decide))
      have := Item.typeReference (n := [c]) (oneLetter (.inl hc)) ⟨c, [], rfl, hc⟩ (by
        intro k hk he
        have hl : k.toList.length = 1 := by rw [← he]; rfl
        have : ∀ k ∈ "ANY" :: reservedWords, k.toList.length ≠ 1 := by decide +kernel
        exact this k hk hl)
      rwa [e] at this
    · cases h
  · split at h
    · rename_i c hc
      cases h
      have e := sanitized (c := c) (by rintro rfl; exact absurd hc (by decide))
      have := Item.identifier (n := [c]) (oneLetter (.inr hc)) ⟨c, [], rfl, hc⟩
      rwa [e] at this
    · cases h
  · split at h
    · rename_i n hn
      cases h
      have hd : ∀ n < 10, FastBer.Spec.decimal [UInt8.ofNat (0x30 + n)] = n ∧ ((48 ≤ (UInt8.ofNat (0x30 + n)).toNat ∧ (UInt8.ofNat (0x30 + n)).toNat ≤ 57)) := by decide
      have := Item.number (s := [UInt8.ofNat (0x30 + n)]) (by intro b hb; rw [List.mem_singleton.1 hb]; exact (hd n hn).2) (by simp) (by rw [(hd n hn).1]; omega)
      rw [(hd n hn).1] at this
      exact this
    · cases h
  · cases h

/-- The text of items, with a space behind each. -/
def itemsText (ts : List Tok) : Bytes := (ts.map fun t => (t, (textItem t).getD [])).flatMap fun p => p.2 ++ [0x20]

theorem itemsText_sound {ts : List Tok} (h : (ts.all fun t => (textItem t).isSome) = true) : Text ts (itemsText ts) := by
  have := spaced_text (l := ts.map fun t => (t, (textItem t).getD [])) (by
    intro p hp
    obtain ⟨t, ht, rfl⟩ := List.mem_map.1 hp
    have h1 := List.all_eq_true.1 h t ht
    obtain ⟨x, hx⟩ := Option.isSome_iff_exists.1 h1
    simp only [hx, Option.getD_some]
    exact textItem_sound hx)
  simpa [itemsText, Function.comp_def] using this

/-- A module that uses a type of another, -/
def textFile1 : String :=
  "M DEFINITIONS IMPLICIT TAGS ::= BEGIN IMPORTS C FROM N ; S ::= SEQUENCE { a INTEGER ( 0 .. 9 ) , b [ 5 ] C OPTIONAL , l SEQUENCE OF SET { n NULL } } T ::= SET OF S END "
def textItems1 : List Tok := [.upper ['M'], kw "DEFINITIONS", kw "IMPLICIT", kw "TAGS", kw "::=", kw "BEGIN", kw "IMPORTS", .upper ['C'], kw "FROM", .upper ['N'], kw ";", .upper ['S'], kw "::=", kw "SEQUENCE", kw "{", .lower ['a'], kw "INTEGER", kw "(", .number 0, kw "..", .number 9, kw ")", kw ",", .lower ['b'], kw "[", .number 5, kw "]", .upper ['C'], kw "OPTIONAL", kw ",", .lower ['l'], kw "SEQUENCE", kw "OF", kw "SET", kw "{", .lower ['n'], kw "NULL", kw "}", kw "}", .upper ['T'], kw "::=", kw "SET", kw "OF", .upper ['S'], kw "END"]

/-- and that module. -/
def textFile2 : String := "N DEFINITIONS ::= BEGIN C ::= BOOLEAN END "
def textItems2 : List Tok := [.upper ['N'], kw "DEFINITIONS", kw "::=", kw "BEGIN", .upper ['C'], kw "::=", kw "BOOLEAN", kw "END"]

/-- The files. -/
def textFiles : List Bytes := [bytes textFile1, bytes textFile2]

/-- The type `S`. -/
def textS : AType := .sequence [required "a" (.leaf .integer), optional "b" (.prefixed .contextSpecific 5 .automatic (.defined none "C" [])),
    required "l" (.seqOf none (.set [required "n" (.leaf .null)] false) .smallBuffer)] false

def textModules : List Module := [
  ⟨"M", .implicit, [⟨"N", ["C"], []⟩], [{ name := "S", body := .type textS }, { name := "T", body := .type (.setOf none (.defined none "S" []) .smallBuffer) }]⟩,
  ⟨"N", .explicit_, [], [{ name := "C", body := .type (.leaf .boolean) }]⟩]

theorem text_written (stod : Bytes → UInt64) : Written stod textFiles textModules := by
  have hc : ConstraintN stod [kw "(", .number 0, kw "..", .number 9, kw ")"] :=
    .subtype (w := [.number 0, kw "..", .number 9]) (.root (.weaker (.weaker (.weaker (.weaker (.range (w := [.number 0]) (w' := [.number 9])
      (.value (.int (.number 0))) (.value (.int (.number 9)))) (by decide)) (by decide)) (by decide)) (by decide)))
  have hint : TypeN stod true ([kw "INTEGER"] ++ [kw "(", .number 0, kw "..", .number 9, kw ")"]) (.leaf .integer) :=
    .constrained (.simple (ks := ["INTEGER"]) (by simp [simpleTypes])) hc
  have hb := ComponentN.optional ['b'] (.tagged 5 .context (by decide) .default (.reference (real := stod) ['C']))
  have hset := TypeN.set (.root (.one (ComponentN.required ['n'] (.null (real := stod)))))
  have hl := ComponentN.required ['l'] (.sequenceOf .nothing (.plain hset))
  have hs := TypeN.sequence (.root (.more (.more (.one (ComponentN.required ['a'] hint)) hb) hl))
  have ht := TypeN.setOf .nothing (.plain (.reference (real := stod) ['S']))
  have hm := FileN.one (.full (o := []) (e := []) ['M'] .nothing .implicit .nothing
    (.some_ (.one (.mk ['N'] (.one (.type 'C' [] (by decide) (by decide))) .nothing))) (.more (.type ['S'] hs) (.one (.type ['T'] ht))))
  have hn := FileN.one (.full (o := []) (e := []) (g := []) (i := []) ['N'] .nothing .nothing .nothing .nothing
    (.one (.type ['C'] (.simple (real := stod) (ks := ["BOOLEAN"]) (k := .boolean) (by simp [simpleTypes])))))
  have t1 : Text textItems1 (bytes textFile1) := by
    have e : bytes textFile1 = itemsText textItems1 := by decide +kernel
    rw [e]
    exact itemsText_sound (by decide +kernel)
  have t2 : Text textItems2 (bytes textFile2) := by
    have e : bytes textFile2 = itemsText textItems2 := by decide +kernel
    rw [e]
    exact itemsText_sound (by decide +kernel)
  exact .cons t1 hm (.cons t2 hn .nil)

/-- The C++ types. -/
def textTyS : Ty := .seq (univ 16) <|
  .cons .mandatory [] (.leaf .int (univ 2)) <| .cons .optional [⟨.contextSpecific, 5⟩] (.leaf .bool (ctx 5)) <|
  .cons .mandatory [] (.seqOf (univ 16) (.set (univ 17) false (.cons .mandatory [⟨.universal, 5⟩] (.leaf .null (univ 5)) .nil))) .nil

/-- What the passes make of the modules. -/
def textOut : Tree := ⟨[
  ⟨"N", .explicit_, [], [{ name := "C", body := .type (.leaf .boolean) }]⟩,
  ⟨"M", .implicit, [⟨"N", ["C"], []⟩], [
    { name := "C", body := .type (.defined (some "N") "C" []) },
    { name := "UnnamedSet0", body := .type (.set [required "n" (.leaf .null)] false) },
    { name := "S", body := .type (.sequence [required "a" (.leaf .integer), optional "b" (.prefixed .contextSpecific 5 .automatic (.defined none "C" [])),
      required "l" (.seqOf none (.defined (some "M") "UnnamedSet0" []) .smallBuffer)] false) },
    { name := "T", body := .type (.setOf none (.defined none "S" []) .smallBuffer) }]⟩]⟩

theorem text_frontEnd : frontEnd 20 (backT ⟨textModules⟩) = .ok textOut := by rfl

theorem text_generate : ∃ env, generate demoLib 20 textOut = .ok env ∧ env.typeOf "M" "S" = some textTyS := ⟨_, rfl, rfl⟩

theorem text_compiles (stod : Bytes → UInt64) : ∃ env, TextCompiled stod demoLib textFiles textModules env ∧ env.typeOf "M" "S" = some textTyS := by
  obtain ⟨env, h2, h3⟩ := text_generate
  refine ⟨env, ⟨text_written stod, by decide +kernel, Check.plainSource_sound (by decide +kernel), Check.supportedSource_sound (fuel := 20) (by decide +kernel),
    Check.legal_sound (fuel := 20) (by decide +kernel), demoLib_defaults, 20, ?_⟩, h3⟩
  rw [C96_compile (text_written stod)]
  show compile demoLib 20 (backT ⟨textModules⟩) = _
  unfold compile
  rw [text_frontEnd]
  exact h2

theorem text_noBareChoice : NoBareChoice (qualify ⟨textModules⟩) := Check.noBareChoice_sound (fuel := 20) (by decide +kernel)

theorem textS_assigned : SourceAssigned ⟨textModules⟩ textModules[0] "S" textS where
  module := List.mem_cons_self
  assignment := ⟨_, List.mem_cons_self, rfl, rfl⟩
  tags := Check.taggedStruct_sound 5 _ _ rfl

/-- What C96 says of it. -/
example (stod : Bytes → UInt64) : ∃ (env : Env) (T : Ty), env.typeOf "M" "S" = some T ∧ T = textTyS ∧
    ∀ x, Ast.Spec.Value storable (qualify ⟨textModules⟩) (qualifyModule ⟨textModules⟩ textModules[0]) (qualifyType ⟨textModules⟩ "M" textS) x → ∃ o e, T.Rep o x e ∧ T.Fresh o := by
  obtain ⟨env, h1, h2⟩ := text_compiles stod
  obtain ⟨T, g1, -, g2⟩ := C96_encodes_partial h1 textS_assigned
  exact ⟨env, T, g1, Option.some.inj (g1.symm.trans h2), g2⟩

/-- And C96_rejects: code is generated for the two files. -/
example (stod : Bytes → UInt64) : ∃ fuel env, compileFiles stod demoLib fuel textFiles = .ok env := by
  obtain ⟨env, h1, -⟩ := text_compiles stod
  obtain ⟨fuel, h⟩ := h1.output
  exact ⟨fuel, env, h⟩

end FastBer.Props
