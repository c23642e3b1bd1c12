import Verif.Proofs.EvolveRecursive
import Verif.Props.RecursiveEmit
import Verif.Props.Emit
import Verif.Props.ParserExamples
import Verif.Props.Members
/-!
# Versions of a schema: what programs made from different versions make of each other's messages
-/
namespace FastBer.Props
open FastBer.Ast FastBer.Ast.Spec _root_.FastBer.Spec
open FastBer.Lexer FastBer.Notation FastBer.Parser

/-- C100 (`_partial`), receiving from the future: a program compiled from a schema decodes every encoding (definite lengths, simple values the library can read) of a value of any later
version of the type, made by whatever tool from whatever legal schema, provided the value uses no alternative of a CHOICE that the program does not know.  The object then holds the part of the value that the program's
version of the type has components for: components unknown to it are skipped, at any depth, whatever is in them.
Missing, because it is false: additions between two parts of the root (`C100_violated_second_root`), new alternatives (`C100_violated_alternative`).  Recursive types: `C100_forward_recursive_partial`. -/
theorem C100_forward_partial {lib : Lib} {old : Tree} {env : Env} (hc : Compiled lib old env) (hb : NoBareChoice old) {mod : Module} {name : Name} {t : AType}
    (ha : Assigned old mod name t) {new : Tree} (hn : Legal new) {mod' : Module} {t' : AType} (ho : Occurs new mod' t')
    (hl : Later (fun _ => True) old new mod t mod' t') :
    ∃ T, env.typeOf mod.name name = some T ∧
      ∀ x y e, Encodes (definite readable) new mod' t' x e → Part (fun _ => True) old mod t x y → e.length < 2 ^ 64 → ∀ suffix, Sane suffix → ∀ o0, T.Holds o0 →
        ∃ o' e', T.decode o0 (e ++ suffix) = .ok (true, o') ∧ T.Rep o' y e' := by
  obtain ⟨T, hT, his, hw, hu⟩ := implements hc ha
  have hg := is_guarded hc.legal hb T mod t his.1 (coreIn_of_occurs ha.occurs)
  refine ⟨T, hT, ?_⟩
  intro x y e he hp hlen suffix hs o0 h0
  obtain ⟨v, h1, h2, _, h3, h4⟩ := Evo.good_later (s := sizeOf x) hn (fun _ _ _ h => h.elim) (fun _ _ _ h => h.elim) T mod t mod' t' x y e his hw hu (Nat.le_refl _) hl (known_of_occurs hn ho) hp he hlen suffix hs
  obtain ⟨v', r, o', g1, g2, g3, g4⟩ := C65_decode_iff_reads T hw hu hg h4 (fun _ => ⟨v, h1, h2⟩) h0
  rw [h1] at g1
  cases g1
  have hr : r = true := g3.2 ⟨y, h3.reads⟩
  subst hr
  obtain ⟨z, e', a1, a2⟩ := g4 rfl
  rw [h3.only z a2] at a1
  exact ⟨o', e', g2, a1⟩

/-- C100 (`_partial`), receiving from the past: if all that was added to types with extension markers may be absent, then a program compiled from the later version decodes every encoding of every value of the older version of the type.
The object then holds a value that has what the older version had, and whose other components are absent (or have their default values).
Missing, because it is false: mandatory additions (`C100_violated_mandatory`), and additions between two parts of the root.  Recursive types: `C100_backward_recursive_partial`. -/
theorem C100_backward_partial {lib : Lib} {new : Tree} {env : Env} (hc : Compiled lib new env) (hb : NoBareChoice new) {mod' : Module} {name : Name} {t' : AType}
    (ha : Assigned new mod' name t') {old : Tree} {mod : Module} {t : AType} (hl : Later MayBeLeftOut old new mod t mod' t') :
    ∃ T, env.typeOf mod'.name name = some T ∧
      ∀ y e, Encodes (definite readable) old mod t y e → e.length < 2 ^ 64 → ∀ suffix, Sane suffix → ∀ o0, T.Holds o0 →
        ∃ o' x e', T.decode o0 (e ++ suffix) = .ok (true, o') ∧ T.Rep o' x e' ∧ Part NothingIn old mod t x y := by
  obtain ⟨T, hT, h⟩ := C78_decodes_partial hc hb ha
  refine ⟨T, hT, fun y e he hlen suffix hs o0 h0 => ?_⟩
  obtain ⟨x, hp, hx⟩ := Evo.encodes_later he _ _ hl
  obtain ⟨o', e', h1, h2⟩ := h x e hx hlen suffix hs o0 h0
  exact ⟨o', x, e', h1, h2, hp⟩

/-- C100 (`_partial`), receiving from the future, for schemas with circular references. -/
theorem C100_forward_recursive_partial {lib : Lib} {old : Tree} {env : Fwd.Env} (hc : RCompiled lib old env) (hb : NoBareChoice old) {mod : Module} {name : Name} {t : AType}
    (ha : Assigned old mod name t) {new : Tree} (hn : Legal new) {mod' : Module} {t' : AType} (hocc : Occurs new mod' t')
    (hlt : Later (fun _ => True) old new mod t mod' t') :
    ∀ x y e, Encodes (definite readable) new mod' t' x e → Part (fun _ => True) old mod t x y → e.length < 2 ^ 64 → ∀ suffix, Sane suffix →
      ∀ o0, env.program.Holds ⟨mod.name, name, none⟩ o0 →
        ∃ o' e', Returns (env.program.decode ⟨mod.name, name, none⟩ o0 (e ++ suffix)) (.ok (true, o')) ∧ env.program.Rep ⟨mod.name, name, none⟩ o' y e' := by
  obtain ⟨_, hf⟩ := hc.fits ha
  intro x y e he hp hl suffix hs o0 h0
  obtain ⟨K, hK⟩ := hc.ok.reads_iff ⟨mod.name, name, none⟩ (e ++ suffix).length
  obtain ⟨v, h1, h2, _, h3, h4⟩ := Fwd.unfold_later hc.supported hc.legal hc.linked hc.ok hn (max K (sizeOf x)) _ mod t hf mod' t' x y e (by omega) hlt (known_of_occurs hn hocc) hp he hl suffix hs
  obtain ⟨p1, p2⟩ := Parsed.of_assign h1
  have hiff := hK (max K (sizeOf x)) (by omega) v p1 (by omega)
  obtain ⟨v', r, o', g1, g2, g3, g4⟩ := C91_decode_iff_reads hc.ok (hc.linked.unamb hc.supported hc.legal)
    (hc.linked.guarded hc.supported hc.legal hb) h4 (fun _ => ⟨v, h1, h2⟩) h0
  rw [h1] at g1
  cases g1
  have hr : r = true := g3.2 ⟨y, (hiff y).2 h3.reads⟩
  subst hr
  obtain ⟨z, e', a1, a2⟩ := g4 rfl
  rw [h3.only z ((hiff z).1 a2)] at a1
  exact ⟨o', e', g2, a1⟩

/-- C100 (`_partial`), receiving from the past, for schemas with circular references. -/
theorem C100_backward_recursive_partial {lib : Lib} {new : Tree} {env : Fwd.Env} (hc : RCompiled lib new env) (hb : NoBareChoice new) {mod' : Module} {name : Name} {t' : AType}
    (ha : Assigned new mod' name t') {old : Tree} {mod : Module} {t : AType} (hl : Later MayBeLeftOut old new mod t mod' t') :
    ∀ y e, Encodes (definite readable) old mod t y e → e.length < 2 ^ 64 → ∀ suffix, Sane suffix → ∀ o0, env.program.Holds ⟨mod'.name, name, none⟩ o0 →
      ∃ o' x e', Returns (env.program.decode ⟨mod'.name, name, none⟩ o0 (e ++ suffix)) (.ok (true, o')) ∧ env.program.Rep ⟨mod'.name, name, none⟩ o' x e' ∧ Part NothingIn old mod t x y := by
  intro y e he hlen suffix hs o0 h0
  obtain ⟨x, hp, hx⟩ := Evo.encodes_later he _ _ hl
  obtain ⟨o', e', h1, h2⟩ := C78_decodes_recursive_partial hc hb ha x e hx hlen suffix hs o0 h0
  exact ⟨o', x, e', h1, h2, hp⟩

/-! ## Two versions that meet the conditions -/

/-- ```
People DEFINITIONS IMPLICIT TAGS ::= BEGIN
Contact ::= CHOICE { mail [0] UTF8String, … }
Label ::= SET { number INTEGER, … }
Person ::= SEQUENCE { id INTEGER, contact [0] Contact, labels [1] SEQUENCE OF Label, … }
END
``` -/
def peopleOld : Tree := ⟨[⟨"People", .implicit, [], [
  ⟨"Contact", .type (.choice [.mk "mail" (.prefixed .contextSpecific 0 .automatic (.leaf (.charString 12)))] .static_), []⟩,
  ⟨"Label", .type (.set [.mk "number" (.leaf .integer) false none none .static_] true), []⟩,
  ⟨"Person", .type (.sequence [
    .mk "id" (.leaf .integer) false none none .static_,
    .mk "contact" (.prefixed .contextSpecific 0 .automatic (.defined none "Contact" [])) false none none .static_,
    .mk "labels" (.prefixed .contextSpecific 1 .automatic (.seqOf none (.defined none "Label" []) .dynamic)) false none none .static_] true), []⟩]⟩]⟩

/-- The next version:
```
Contact ::= CHOICE { mail [0] UTF8String, …, phone [1] INTEGER }
Label ::= SET { number INTEGER, …, text OCTET STRING OPTIONAL }
Place ::= SEQUENCE { x INTEGER, y INTEGER }
Person ::= SEQUENCE { id INTEGER, contact [0] Contact, labels [1] SEQUENCE OF Label, …, home [2] Place OPTIONAL, adult BOOLEAN OPTIONAL }
``` -/
def peopleNew : Tree := ⟨[⟨"People", .implicit, [], [
  ⟨"Contact", .type (.choice [.mk "mail" (.prefixed .contextSpecific 0 .automatic (.leaf (.charString 12))),
    .mk "phone" (.prefixed .contextSpecific 1 .automatic (.leaf .integer))] .static_), []⟩,
  ⟨"Label", .type (.set [.mk "number" (.leaf .integer) false none none .static_, .mk "text" (.leaf .octetString) true none none .static_] true), []⟩,
  ⟨"Place", .type (.sequence [.mk "x" (.leaf .integer) false none none .static_, .mk "y" (.leaf .integer) false none none .static_] false), []⟩,
  ⟨"Person", .type (.sequence [
    .mk "id" (.leaf .integer) false none none .static_,
    .mk "contact" (.prefixed .contextSpecific 0 .automatic (.defined none "Contact" [])) false none none .static_,
    .mk "labels" (.prefixed .contextSpecific 1 .automatic (.seqOf none (.defined none "Label" []) .dynamic)) false none none .static_,
    .mk "home" (.prefixed .contextSpecific 2 .automatic (.defined none "Place" [])) true none none .static_,
    .mk "adult" (.leaf .boolean) true none none .static_] true), []⟩]⟩]⟩

def peopleOldModule : Module := peopleOld.modules[0]
def peopleNewModule : Module := peopleNew.modules[0]

def personOld : AType := .sequence [
    .mk "id" (.leaf .integer) false none none .static_,
    .mk "contact" (.prefixed .contextSpecific 0 .automatic (.defined none "Contact" [])) false none none .static_,
    .mk "labels" (.prefixed .contextSpecific 1 .automatic (.seqOf none (.defined none "Label" []) .dynamic)) false none none .static_] true

def personNew : AType := .sequence [
    .mk "id" (.leaf .integer) false none none .static_,
    .mk "contact" (.prefixed .contextSpecific 0 .automatic (.defined none "Contact" [])) false none none .static_,
    .mk "labels" (.prefixed .contextSpecific 1 .automatic (.seqOf none (.defined none "Label" []) .dynamic)) false none none .static_,
    .mk "home" (.prefixed .contextSpecific 2 .automatic (.defined none "Place" [])) true none none .static_,
    .mk "adult" (.leaf .boolean) true none none .static_] true

/-- The old program. -/
def personOldTy : Ty := .seq (univ 16) <|
  .cons .mandatory [] (.leaf .int (univ 2)) <|
  .cons .mandatory [] (.choice (.tagged (ctx 0)) (.cons [⟨.contextSpecific, 0⟩] (.leaf .str (ctx 0)) .nil)) <|
  .cons .mandatory [] (.seqOf (ctx 1) (.set (univ 17) true (.cons .mandatory [⟨.universal, 2⟩] (.leaf .int (univ 2)) .nil))) .nil

/-- The new program. -/
def personNewTy : Ty := .seq (univ 16) <|
  .cons .mandatory [] (.leaf .int (univ 2)) <|
  .cons .mandatory [] (.choice (.tagged (ctx 0)) (.cons [⟨.contextSpecific, 0⟩] (.leaf .str (ctx 0)) (.cons [⟨.contextSpecific, 1⟩] (.leaf .int (ctx 1)) .nil))) <|
  .cons .mandatory [] (.seqOf (ctx 1) (.set (univ 17) true (.cons .mandatory [⟨.universal, 2⟩] (.leaf .int (univ 2)) (.cons .optional [⟨.universal, 4⟩] (.leaf .str (univ 4)) .nil)))) <|
  .cons .optional [⟨.contextSpecific, 2⟩] (.seq (ctx 2) (.cons .mandatory [] (.leaf .int (univ 2)) (.cons .mandatory [] (.leaf .int (univ 2)) .nil))) <|
  .cons .optional [⟨.universal, 1⟩] (.leaf .bool (univ 1)) .nil

/-- What is generated from the old version. -/
def peopleOldEnv : Env := ⟨[(("People", "Person"), .type personOldTy),
  (("People", "Label"), .type (.set (univ 17) true (.cons .mandatory [⟨.universal, 2⟩] (.leaf .int (univ 2)) .nil))),
  (("People", "Contact"), .type (.choice (.untagged [⟨.contextSpecific, 0⟩]) (.cons [⟨.contextSpecific, 0⟩] (.leaf .str (ctx 0)) .nil)))], []⟩

/-- What is generated from the new version. -/
def peopleNewEnv : Env := ⟨[(("People", "Person"), .type personNewTy),
  (("People", "Place"), .type (.seq (univ 16) (.cons .mandatory [] (.leaf .int (univ 2)) (.cons .mandatory [] (.leaf .int (univ 2)) .nil)))),
  (("People", "Label"), .type (.set (univ 17) true (.cons .mandatory [⟨.universal, 2⟩] (.leaf .int (univ 2)) (.cons .optional [⟨.universal, 4⟩] (.leaf .str (univ 4)) .nil)))),
  (("People", "Contact"), .type (.choice (.untagged [⟨.contextSpecific, 0⟩, ⟨.contextSpecific, 1⟩]) (.cons [⟨.contextSpecific, 0⟩] (.leaf .str (ctx 0)) (.cons [⟨.contextSpecific, 1⟩] (.leaf .int (ctx 1)) .nil))))], []⟩

theorem peopleOld_compiled : Compiled demoLib peopleOld peopleOldEnv :=
  ⟨Check.supported_sound (fuel := 20) (by decide +kernel), Check.legal_sound (fuel := 20) (by decide +kernel), demoLib_defaults, 20, by rfl⟩
theorem peopleNew_compiled : Compiled demoLib peopleNew peopleNewEnv :=
  ⟨Check.supported_sound (fuel := 20) (by decide +kernel), Check.legal_sound (fuel := 20) (by decide +kernel), demoLib_defaults, 20, by rfl⟩

theorem peopleOld_noBareChoice : NoBareChoice peopleOld := Check.noBareChoice_sound (fuel := 20) (by decide +kernel)
theorem peopleNew_noBareChoice : NoBareChoice peopleNew := Check.noBareChoice_sound (fuel := 20) (by decide +kernel)

theorem personOld_assigned : Assigned peopleOld peopleOldModule "Person" personOld where
  module := by simp [peopleOld, peopleOldModule]
  assignment := ⟨⟨"Person", .type personOld, []⟩, by simp [peopleOld, peopleOldModule, personOld], rfl, rfl⟩
  tags := Check.lost_sound 5 _ _ rfl
theorem personNew_assigned : Assigned peopleNew peopleNewModule "Person" personNew where
  module := by simp [peopleNew, peopleNewModule]
  assignment := ⟨⟨"Person", .type personNew, []⟩, by simp [peopleNew, peopleNewModule, personNew], rfl, rfl⟩
  tags := Check.lost_sound 5 _ _ rfl

/-- The second is a later version of the first; everything added may be absent. -/
theorem person_later {added : List Slot → Prop} (h : ∀ ss, MayBeLeftOut ss → added ss) : Later added peopleOld peopleNew peopleOldModule personOld peopleNewModule personNew := by
  have ot : ∀ {m t ts}, Check.ownTags peopleOld 9 m t = some ts → OwnTags peopleOld m t ts := fun h => Check.ownTags_sound 9 _ _ _ h
  have nt : ∀ {m t ts}, Check.ownTags peopleNew 9 m t = some ts → OwnTags peopleNew m t ts := fun h => Check.ownTags_sound 9 _ _ _ h
  have oc : ∀ {m t w u}, Check.core peopleOld 9 m t = some (w, u) → Core peopleOld m t w u := fun h => Check.core_sound 9 _ _ _ _ h
  have nc : ∀ {m t w u}, Check.core peopleNew 9 m t = some (w, u) → Core peopleNew m t w u := fun h => Check.core_sound 9 _ _ _ _ h
  have st : ∀ {m t m' t' ts w u w' u'}, OwnTags peopleOld m t ts → OwnTags peopleNew m' t' ts → Core peopleOld m t w u → Core peopleNew m' t' w' u' →
      LaterOf added (Later added peopleOld peopleNew) w u w' u' → Later added peopleOld peopleNew m t m' t' := fun h1 h2 h3 h4 h5 => Evo.later_of ⟨_, _, _, _, _, h1, h2, h3, h4, h5⟩
  refine st (ot rfl) (nt rfl) (oc rfl) (nc rfl) (.sequence (.cons ?_ (.cons ?_ (.cons ?_ (.more (h _ ?_))))))
  · exact st (ot rfl) (nt rfl) (oc rfl) (nc rfl) (.leaf _ _ _)
  · refine st (ot rfl) (nt rfl) (oc rfl) (nc rfl) (.choice (.cons ?_ (.more _)))
    exact st (ot rfl) (nt rfl) (oc rfl) (nc rfl) (.leaf _ _ _)
  · refine st (ot rfl) (nt rfl) (oc rfl) (nc rfl) (.seqOf ?_)
    refine st (ot rfl) (nt rfl) (oc rfl) (nc rfl) (.set (.cons ?_ (.more (h _ ?_))))
    · exact st (ot rfl) (nt rfl) (oc rfl) (nc rfl) (.leaf _ _ _)
    · intro s hs
      cases List.mem_singleton.1 hs
      rfl
  · intro s hs
    rcases List.mem_cons.1 hs with rfl | hs
    · rfl
    · cases List.mem_singleton.1 hs
      rfl

/-- `{ id 7, contact mail: "a", labels {{ number 1, text 'B' }}, home { x 1, y 2 }, adult TRUE }`. -/
def personVal : Val := .struct [.content [7], .alt 0 (.content [0x61]), .list [.struct [.content [1], .present (.content [0x42])]],
  .present (.struct [.content [1], .content [2]]), .present (.content [0xFF])]

/-- What the old version has components for. -/
def personPart : Val := .struct [.content [7], .alt 0 (.content [0x61]), .list [.struct [.content [1]]]]

def personBytes : Bytes := [0x30, 29, 2, 1, 7, 0xA0, 3, 0x80, 1, 0x61, 0xA1, 8, 0x31, 6, 4, 1, 0x42, 2, 1, 1, 0xA2, 6, 2, 1, 1, 2, 1, 2, 1, 1, 0xFF]

/-- A simple value of one octet. -/
theorem one_octet {tree : Tree} {mod wm : Module} {t : AType} {k : Builtin} {b id : UInt8} {tag : Spec.Tag} (h1 : Check.ownTags tree 9 mod t = some [tag])
    (h2 : Check.core tree 9 mod t = some (wm, .leaf k)) (h3 : storable k [b]) (h4 : identifierOctets (classOf tag.1) .primitive tag.2 = [id]) :
    Encodes (definite readable) tree mod t (.content [b]) [id, 1, b] :=
  .intro (Check.ownTags_sound 9 _ _ _ h1) (Check.core_sound 9 _ _ _ _ h2) (.leaf (readable_one h3)) ⟨[1], .short (by simp), by rw [h4]; rfl⟩

theorem person_encodes : Encodes (definite readable) peopleNew peopleNewModule personNew personVal personBytes := by
  have nt : ∀ {m t ts}, Check.ownTags peopleNew 9 m t = some ts → OwnTags peopleNew m t ts := fun h => Check.ownTags_sound 9 _ _ _ h
  have nc : ∀ {m t w u}, Check.core peopleNew 9 m t = some (w, u) → Core peopleNew m t w u := fun h => Check.core_sound 9 _ _ _ _ h
  refine .intro (nt rfl) (nc rfl) (.sequence (es := [[2, 1, 7], [0xA0, 3, 0x80, 1, 0x61], [0xA1, 8, 0x31, 6, 4, 1, 0x42, 2, 1, 1], [0xA2, 6, 2, 1, 1, 2, 1, 2], [1, 1, 0xFF]])
    (.mandatory (one_octet rfl rfl (show _ ≤ _ from by decide) rfl) (.mandatory ?_ (.mandatory ?_ (.present ?_ (.present (one_octet rfl rfl rfl rfl) (.nil _)))))))
    ⟨[29], .short (by decide), rfl⟩
  · exact .intro (nt rfl) (nc rfl) (.choice (i := 0) rfl (one_octet rfl rfl (show _ < _ from by decide) rfl)) ⟨[3], .short (by decide), rfl⟩
  · refine .intro (nt rfl) (nc rfl) (.seqOf (es := [[0x31, 6, 4, 1, 0x42, 2, 1, 1]]) (.cons ?_ (.nil _ _))) ⟨[8], .short (by decide), rfl⟩
    exact .intro (nt rfl) (nc rfl) (.set (es := [[2, 1, 1], [4, 1, 0x42]]) (es' := [[4, 1, 0x42], [2, 1, 1]])
      (.mandatory (one_octet rfl rfl (show _ ≤ _ from by decide) rfl) (.present (one_octet rfl rfl (show _ < _ from by decide) rfl) (.nil _))) (by decide)) ⟨[6], .short (by decide), rfl⟩
  · exact .intro (nt rfl) (nc rfl) (.sequence (es := [[2, 1, 1], [2, 1, 2]]) (.mandatory (one_octet rfl rfl (show _ ≤ _ from by decide) rfl)
      (.mandatory (one_octet rfl rfl (show _ ≤ _ from by decide) rfl) (.nil _)))) ⟨[6], .short (by decide), rfl⟩

theorem person_part : Part (fun _ => True) peopleOld peopleOldModule personOld personVal personPart := by
  have oc : ∀ {m t w u}, Check.core peopleOld 9 m t = some (w, u) → Core peopleOld m t w u := fun h => Check.core_sound 9 _ _ _ _ h
  refine .intro (oc rfl) (.sequence (.mandatory (.intro (oc rfl) (.leaf _ _ _)) (.mandatory ?_ (.mandatory ?_ (.nil _ trivial)))))
  · exact .intro (oc rfl) (.choice (i := 0) rfl (.intro (oc rfl) (.leaf _ _ _)))
  · exact .intro (oc rfl) (.seqOf (.cons (.intro (oc rfl) (.set (.mandatory (.intro (oc rfl) (.leaf _ _ _)) (.nil _ trivial)))) (.nil _ _)))

/-- So the old program decodes the message of the new one, and keeps what it knows. -/
example : ∃ T, peopleOldEnv.typeOf "People" "Person" = some T ∧ ∀ o0, T.Holds o0 → ∃ o' e', T.decode o0 (personBytes ++ []) = .ok (true, o') ∧ T.Rep o' personPart e' := by
  obtain ⟨T, h1, h2⟩ := C100_forward_partial peopleOld_compiled peopleOld_noBareChoice personOld_assigned peopleNew_compiled.legal personNew_assigned.occurs (person_later fun _ _ => trivial)
  exact ⟨T, h1, h2 _ _ _ person_encodes person_part (by decide) [] sane_nil⟩

example : succeeded (personOldTy.decode (.struct [.raw [2, 1, 0, 0, 0, 0, 0, 0, 0, 0], .alt 0 (.raw [0x80, 0]), .list []]) personBytes) = true := by decide +kernel

/-- And the new program decodes a message of the old one. -/
example : ∃ T, peopleNewEnv.typeOf "People" "Person" = some T ∧
    ∀ y e, Encodes (definite readable) peopleOld peopleOldModule personOld y e → e.length < 2 ^ 64 → ∀ o0, T.Holds o0 →
      ∃ o' x e', T.decode o0 (e ++ []) = .ok (true, o') ∧ T.Rep o' x e' ∧ Part NothingIn peopleOld peopleOldModule personOld x y := by
  obtain ⟨T, h1, h2⟩ := C100_backward_partial peopleNew_compiled peopleNew_noBareChoice personNew_assigned (person_later fun _ h => h)
  exact ⟨T, h1, fun y e he hl o0 h0 => h2 y e he hl [] sane_nil o0 h0⟩

/-! ## Two versions of a recursive type -/

/-- `Node ::= SEQUENCE { value INTEGER, next Node OPTIONAL, … }`. -/
def nodeOld : AType := .sequence [.mk "value" (.leaf .integer) false none none .static_, .mk "next" (.defined none "Node" []) true none none .dynamic] true
/-- `Node ::= SEQUENCE { value INTEGER, next Node OPTIONAL, …, mark BOOLEAN OPTIONAL }`. -/
def nodeNew : AType := .sequence [.mk "value" (.leaf .integer) false none none .static_, .mk "next" (.defined none "Node" []) true none none .dynamic,
  .mk "mark" (.leaf .boolean) true none none .static_] true
def nodeModule (t : AType) : Module := ⟨"Chain", .implicit, [], [⟨"Node", .type t, []⟩]⟩
def nodeTree (t : AType) : Tree := ⟨[nodeModule t]⟩

/-- What is generated from the first version. -/
def nodeEnv : Fwd.Env := ⟨[(("Chain", "Node"), .type (.seq (univ 16) (.cons .mandatory [] (.leaf .int (univ 2))
  (.cons .optional [⟨.universal, 16⟩] (.ref ⟨"Chain", "Node", none⟩) .nil))))], []⟩

theorem node_compiled : RCompiled demoLib (nodeTree nodeOld) nodeEnv :=
  ⟨Check.supported_sound (fuel := 20) (by decide +kernel), Check.legal_sound (fuel := 20) (by decide +kernel), demoLib_defaults, ⟨20, by rfl⟩, constructs_sound (k := 5) (by decide +kernel)⟩

theorem node_later : Later (fun _ => True) (nodeTree nodeOld) (nodeTree nodeNew) (nodeModule nodeOld) nodeOld (nodeModule nodeNew) nodeNew := by
  refine ⟨fun m t m' t' => m = nodeModule nodeOld ∧ m' = nodeModule nodeNew ∧
    ((t = nodeOld ∧ t' = nodeNew) ∨ (t = .defined none "Node" [] ∧ t' = .defined none "Node" []) ∨ (t = .leaf .integer ∧ t' = .leaf .integer)), ?_, rfl, rfl, .inl ⟨rfl, rfl⟩⟩
  have key : LaterOf (fun _ => True) (fun m t m' t' => m = nodeModule nodeOld ∧ m' = nodeModule nodeNew ∧
    ((t = nodeOld ∧ t' = nodeNew) ∨ (t = .defined none "Node" [] ∧ t' = .defined none "Node" []) ∨ (t = .leaf .integer ∧ t' = .leaf .integer)))
    (nodeModule nodeOld) nodeOld (nodeModule nodeNew) nodeNew :=
    .sequence (.cons ⟨rfl, rfl, .inr (.inr ⟨rfl, rfl⟩)⟩ (.cons ⟨rfl, rfl, .inr (.inl ⟨rfl, rfl⟩)⟩ (.more trivial)))
  rintro m t m' t' ⟨rfl, rfl, ⟨rfl, rfl⟩ | ⟨rfl, rfl⟩ | ⟨rfl, rfl⟩⟩
  · exact ⟨_, _, _, _, _, Check.ownTags_sound 9 _ _ _ rfl, Check.ownTags_sound 9 _ _ _ rfl, Check.core_sound 9 _ _ _ _ rfl, Check.core_sound 9 _ _ _ _ rfl, key⟩
  · exact ⟨_, _, _, _, _, Check.ownTags_sound 9 _ _ _ rfl, Check.ownTags_sound 9 _ _ _ rfl, Check.core_sound 9 _ _ _ _ rfl, Check.core_sound 9 _ _ _ _ rfl, key⟩
  · exact ⟨_, _, _, _, _, Check.ownTags_sound 9 _ _ _ rfl, Check.ownTags_sound 9 _ _ _ rfl, Check.core_sound 9 _ _ _ _ rfl, Check.core_sound 9 _ _ _ _ rfl, .leaf _ _ _⟩

theorem node_assigned (t : AType) (h : ¬ Lost (nodeTree t) (nodeModule t) t) : Assigned (nodeTree t) (nodeModule t) "Node" t :=
  ⟨by simp [nodeTree], ⟨⟨"Node", .type t, []⟩, by simp [nodeModule], rfl, rfl⟩, h⟩

/-- So the first program decodes chains of any length of the second one's nodes. -/
example : ∀ x y e, Encodes (definite readable) (nodeTree nodeNew) (nodeModule nodeNew) nodeNew x e → Part (fun _ => True) (nodeTree nodeOld) (nodeModule nodeOld) nodeOld x y → e.length < 2 ^ 64 →
    ∀ o0, nodeEnv.program.Holds ⟨"Chain", "Node", none⟩ o0 →
      ∃ o' e', Returns (nodeEnv.program.decode ⟨"Chain", "Node", none⟩ o0 (e ++ [])) (.ok (true, o')) ∧ nodeEnv.program.Rep ⟨"Chain", "Node", none⟩ o' y e' := by
  have h := C100_forward_recursive_partial node_compiled (Check.noBareChoice_sound (fuel := 20) (by decide +kernel)) (node_assigned nodeOld (Check.lost_sound 5 _ _ rfl))
    (Check.legal_sound (fuel := 20) (by decide +kernel)) (node_assigned nodeNew (Check.lost_sound 5 _ _ rfl)).occurs node_later
  exact fun x y e hx hp hl o0 h0 => h x y e hx hp hl [] sane_nil o0 h0

/-! ## Violations -/

/-- `V DEFINITIONS ::= BEGIN T ::= … END`. -/
def versionTree (t : AType) : Tree := ⟨[⟨"V", .explicit_, [], [⟨"T", .type t, []⟩]⟩]⟩
def versionModule (t : AType) : Module := ⟨"V", .explicit_, [], [⟨"T", .type t, []⟩]⟩

theorem version_assigned {t : AType} (h : ¬ Lost (versionTree t) (versionModule t) t) : Assigned (versionTree t) (versionModule t) "T" t :=
  ⟨by simp [versionTree, versionModule], ⟨⟨"T", .type t, []⟩, by simp [versionModule], rfl, rfl⟩, h⟩

/-- `SEQUENCE { a INTEGER, … }`. -/
def oneMember : AType := .sequence [.mk "a" (.leaf .integer) false none none .static_] true
/-- `SEQUENCE { a INTEGER, …, b BOOLEAN }`. -/
def twoMembers : AType := .sequence [.mk "a" (.leaf .integer) false none none .static_, .mk "b" (.leaf .boolean) false none none .static_] true

/-- A component that was added behind the extension marker and is not OPTIONAL (X.680 25.8 allows that: a message from a sender that does not know it is valid nevertheless) is required:
the new program refuses every message of the old one. -/
theorem C100_violated_mandatory : ∃ env T, Compiled demoLib (versionTree twoMembers) env ∧ NoBareChoice (versionTree twoMembers) ∧
    Assigned (versionTree twoMembers) (versionModule twoMembers) "T" twoMembers ∧ env.typeOf "V" "T" = some T ∧
    Later (fun _ => True) (versionTree oneMember) (versionTree twoMembers) (versionModule oneMember) oneMember (versionModule twoMembers) twoMembers ∧
    ∃ y e o0, Encodes (definite readable) (versionTree oneMember) (versionModule oneMember) oneMember y e ∧ T.Holds o0 ∧ outcome (T.decode o0 e) = some false := by
  refine ⟨⟨[(("V", "T"), .type (.seq (univ 16) (.cons .mandatory [] (.leaf .int (univ 2)) (.cons .mandatory [] (.leaf .bool (univ 1)) .nil))))], []⟩, _,
    ⟨Check.supported_sound (fuel := 20) (by decide +kernel), Check.legal_sound (fuel := 20) (by decide +kernel), demoLib_defaults, 20, by rfl⟩,
    Check.noBareChoice_sound (fuel := 20) (by decide +kernel), version_assigned (Check.lost_sound 5 _ _ rfl), rfl, ?_,
    .struct [.content [5]], [0x30, 3, 2, 1, 5], .struct [.raw [2, 1, 0, 0, 0, 0, 0, 0, 0, 0], .raw [1, 1, 0]], ?_, ?_, by decide +kernel⟩
  · refine Evo.later_of ⟨_, _, _, _, _, Check.ownTags_sound 9 _ _ _ rfl, Check.ownTags_sound 9 _ _ _ rfl, Check.core_sound 9 _ _ _ _ rfl, Check.core_sound 9 _ _ _ _ rfl, .sequence (.cons ?_ (.more trivial))⟩
    exact Evo.later_of ⟨_, _, _, _, _, Check.ownTags_sound 9 _ _ _ rfl, Check.ownTags_sound 9 _ _ _ rfl, Check.core_sound 9 _ _ _ _ rfl, Check.core_sound 9 _ _ _ _ rfl, .leaf _ _ _⟩
  · exact .intro (Check.ownTags_sound 9 _ _ _ rfl) (Check.core_sound 9 _ _ _ _ rfl)
      (.sequence (es := [[2, 1, 5]]) (.mandatory (one_octet rfl rfl (show _ ≤ _ from by decide) rfl) (.nil _))) ⟨[3], .short (by decide), rfl⟩
  · exact ⟨_, _, _, _, _, rfl, rfl, rfl, _, _, _, _, _, _, rfl, rfl, rfl, ⟨[0], [0, 0, 0, 0, 0, 0, 0], rfl, by decide, rfl, rfl, rfl⟩, by
      refine ⟨_, _, _, _, _, _, rfl, rfl, rfl, ⟨0, rfl, rfl, rfl⟩, rfl, rfl, rfl⟩⟩

/-- `CHOICE { a [0] BOOLEAN, … }`. -/
def oneWay : AType := .choice [.mk "a" (.prefixed .contextSpecific 0 .implicit (.leaf .boolean))] .static_
/-- `CHOICE { a [0] BOOLEAN, …, b [1] BOOLEAN }`. -/
def twoWays : AType := .choice [.mk "a" (.prefixed .contextSpecific 0 .implicit (.leaf .boolean)), .mk "b" (.prefixed .contextSpecific 1 .implicit (.leaf .boolean))] .static_

/-- The old program refuses a message with an alternative that was added behind the extension marker of a CHOICE. -/
theorem C100_violated_alternative : ∃ env T, Compiled demoLib (versionTree oneWay) env ∧ NoBareChoice (versionTree oneWay) ∧
    Assigned (versionTree oneWay) (versionModule oneWay) "T" oneWay ∧ env.typeOf "V" "T" = some T ∧
    Later (fun _ => True) (versionTree oneWay) (versionTree twoWays) (versionModule oneWay) oneWay (versionModule twoWays) twoWays ∧
    ∃ x e o0, Encodes (definite readable) (versionTree twoWays) (versionModule twoWays) twoWays x e ∧ T.Holds o0 ∧ outcome (T.decode o0 e) = some false := by
  refine ⟨⟨[(("V", "T"), .type (.choice (.untagged [⟨.contextSpecific, 0⟩]) (.cons [⟨.contextSpecific, 0⟩] (.leaf .bool (ctx 0)) .nil)))], []⟩, _,
    ⟨Check.supported_sound (fuel := 20) (by decide +kernel), Check.legal_sound (fuel := 20) (by decide +kernel), demoLib_defaults, 20, by rfl⟩,
    Check.noBareChoice_sound (fuel := 20) (by decide +kernel), version_assigned (Check.lost_sound 5 _ _ rfl), rfl, ?_,
    .alt 1 (.content [0xFF]), [0x81, 1, 0xFF], .alt 0 (.raw [0x80, 1, 0]), ?_, ?_, by decide +kernel⟩
  · refine Evo.later_of ⟨_, _, _, _, _, Check.ownTags_sound 9 _ _ _ rfl, Check.ownTags_sound 9 _ _ _ rfl, Check.core_sound 9 _ _ _ _ rfl, Check.core_sound 9 _ _ _ _ rfl, .choice (.cons ?_ (.more _))⟩
    exact Evo.later_of ⟨_, _, _, _, _, Check.ownTags_sound 9 _ _ _ rfl, Check.ownTags_sound 9 _ _ _ rfl, Check.core_sound 9 _ _ _ _ rfl, Check.core_sound 9 _ _ _ _ rfl, .leaf _ _ _⟩
  · exact .intro (Check.ownTags_sound 9 _ _ _ rfl) (Check.core_sound 9 _ _ _ _ rfl) (.choice (i := 1) rfl (one_octet rfl rfl rfl rfl)) rfl
  · exact ⟨_, _, 0, _, _, _, rfl, rfl, ⟨0, rfl, rfl, rfl⟩, rfl⟩

/-- `SEQUENCE { a INTEGER, …, b NULL OPTIONAL, …, c BOOLEAN }` as it is in the syntax tree. -/
def closedEnd : AType := .sequence [required "a" (.leaf .integer), .mk "b" (.leaf .null) true none none .static_, required "c" (.leaf .boolean)] true
/-- `SEQUENCE { a INTEGER, …, b NULL OPTIONAL, d OCTET STRING OPTIONAL, …, c BOOLEAN }`. -/
def insertedEnd : AType := .sequence [required "a" (.leaf .integer), .mk "b" (.leaf .null) true none none .static_, .mk "d" (.leaf .octetString) true none none .static_, required "c" (.leaf .boolean)] true

/-- Both are read from the notation; additions go between the two markers (X.680 25.1).  The old program expects the last component of the root right behind the first, and refuses a message in which the addition is present. -/
theorem C100_violated_second_root :
    parsedAs [kw "SEQUENCE", kw "{", .lower ['a'], kw "INTEGER", kw ",", kw "...", kw ",", .lower ['b'], kw "NULL", kw "OPTIONAL", kw ",", kw "...", kw ",", .lower ['c'], kw "BOOLEAN",
      kw "}"] closedEnd ∧
    parsedAs [kw "SEQUENCE", kw "{", .lower ['a'], kw "INTEGER", kw ",", kw "...", kw ",", .lower ['b'], kw "NULL", kw "OPTIONAL", kw ",", .lower ['d'], kw "OCTET", kw "STRING", kw "OPTIONAL", kw ",", kw "...", kw ",", .lower ['c'], kw "BOOLEAN",
      kw "}"] insertedEnd ∧
    ∃ env T, Compiled demoLib (versionTree closedEnd) env ∧ NoBareChoice (versionTree closedEnd) ∧
    Assigned (versionTree closedEnd) (versionModule closedEnd) "T" closedEnd ∧ env.typeOf "V" "T" = some T ∧ Legal (versionTree insertedEnd) ∧
    ∃ x e o0, Encodes (definite readable) (versionTree insertedEnd) (versionModule insertedEnd) insertedEnd x e ∧ T.Holds o0 ∧ outcome (T.decode o0 e) = some false := by
  refine ⟨gave_sound (by decide +kernel), gave_sound (by decide +kernel),
    ⟨[(("V", "T"), .type (.seq (univ 16) (.cons .mandatory [] (.leaf .int (univ 2)) (.cons .optional [⟨.universal, 5⟩] (.leaf .null (univ 5)) (.cons .mandatory [] (.leaf .bool (univ 1)) .nil)))))], []⟩, _,
    ⟨Check.supported_sound (fuel := 20) (by decide +kernel), Check.legal_sound (fuel := 20) (by decide +kernel), demoLib_defaults, 20, by rfl⟩,
    Check.noBareChoice_sound (fuel := 20) (by decide +kernel), version_assigned (Check.lost_sound 5 _ _ rfl), rfl, Check.legal_sound (fuel := 20) (by decide +kernel),
    .struct [.content [5], .absent, .present (.content [9]), .content [0xFF]], [0x30, 9, 2, 1, 5, 4, 1, 9, 1, 1, 0xFF], .struct [.raw [2, 1, 0, 0, 0, 0, 0, 0, 0, 0], .none, .raw [1, 1, 0]], ?_, ?_, by decide +kernel⟩
  · exact .intro (Check.ownTags_sound 9 _ _ _ rfl) (Check.core_sound 9 _ _ _ _ rfl)
      (.sequence (es := [[2, 1, 5], [], [4, 1, 9], [1, 1, 0xFF]]) (.mandatory (one_octet rfl rfl (show _ ≤ _ from by decide) rfl)
        (.absent (.present (one_octet rfl rfl (show _ < _ from by decide) rfl) (.mandatory (one_octet rfl rfl rfl rfl) (.nil _)))))) ⟨[9], .short (by decide), rfl⟩
  · exact ⟨_, _, _, _, _, rfl, rfl, rfl, _, _, _, _, _, _, rfl, rfl, rfl, ⟨[0], [0, 0, 0, 0, 0, 0, 0], rfl, by decide, rfl, rfl, rfl⟩, by
      exact ⟨_, _, _, _, _, _, rfl, rfl, rfl, .inl ⟨rfl, rfl, rfl⟩, _, _, _, _, _, _, rfl, rfl, rfl, ⟨0, rfl, rfl, rfl⟩, rfl, rfl, rfl⟩⟩

/-- `SET { a INTEGER }`. -/
def impliedSet : AType := .set [required "a" (.leaf .integer)] false
/-- `SET { a INTEGER, b BOOLEAN OPTIONAL }`. -/
def impliedMore : AType := .set [required "a" (.leaf .integer), .mk "b" (.leaf .boolean) true none none .static_] false

/-- In a module with EXTENSIBILITY IMPLIED every SEQUENCE, SET, CHOICE and ENUMERATED is to be read as if it ended with an extension marker (X.680 13.4).  The words are read and ignored: a SET refuses
the component that was added in the next version. -/
theorem C100_violated_implied :
    parse (fun _ => 0) ([.upper ['V'], kw "DEFINITIONS", kw "EXTENSIBILITY", kw "IMPLIED", kw "::=", kw "BEGIN", .upper ['T'], kw "::=", kw "SET", kw "{", .lower ['a'], kw "INTEGER", kw "}", kw "END"]) ⟨[], 0⟩ =
      .ok (some ⟨[versionModule impliedSet], 0⟩) ∧
    parse (fun _ => 0) ([.upper ['V'], kw "DEFINITIONS", kw "EXTENSIBILITY", kw "IMPLIED", kw "::=", kw "BEGIN", .upper ['T'], kw "::=", kw "SET", kw "{", .lower ['a'], kw "INTEGER", kw ",",
      .lower ['b'], kw "BOOLEAN", kw "OPTIONAL", kw "}", kw "END"]) ⟨[], 0⟩ = .ok (some ⟨[versionModule impliedMore], 0⟩) ∧
    ∃ env T, Compiled demoLib (versionTree impliedSet) env ∧ NoBareChoice (versionTree impliedSet) ∧
    Assigned (versionTree impliedSet) (versionModule impliedSet) "T" impliedSet ∧ env.typeOf "V" "T" = some T ∧ Legal (versionTree impliedMore) ∧
    ∃ x e o0, Encodes (definite readable) (versionTree impliedMore) (versionModule impliedMore) impliedMore x e ∧ T.Holds o0 ∧ outcome (T.decode o0 e) = some false := by
  refine ⟨gave_sound (by decide +kernel), gave_sound (by decide +kernel),
    ⟨[(("V", "T"), .type (.set (univ 17) false (.cons .mandatory [⟨.universal, 2⟩] (.leaf .int (univ 2)) .nil)))], []⟩, _,
    ⟨Check.supported_sound (fuel := 20) (by decide +kernel), Check.legal_sound (fuel := 20) (by decide +kernel), demoLib_defaults, 20, by rfl⟩,
    Check.noBareChoice_sound (fuel := 20) (by decide +kernel), version_assigned (Check.lost_sound 5 _ _ rfl), rfl, Check.legal_sound (fuel := 20) (by decide +kernel),
    .struct [.content [5], .present (.content [0xFF])], [0x31, 6, 2, 1, 5, 1, 1, 0xFF], .struct [.raw [2, 1, 0, 0, 0, 0, 0, 0, 0, 0]], ?_, ?_, by decide +kernel⟩
  · exact .intro (Check.ownTags_sound 9 _ _ _ rfl) (Check.core_sound 9 _ _ _ _ rfl)
      (.set (es := [[2, 1, 5], [1, 1, 0xFF]]) (.mandatory (one_octet rfl rfl (show _ ≤ _ from by decide) rfl) (.present (one_octet rfl rfl rfl rfl) (.nil _))) (List.Perm.refl _)) ⟨[6], .short (by decide), rfl⟩
  · exact ⟨_, _, _, _, _, rfl, rfl, rfl, _, _, _, _, _, _, rfl, rfl, rfl, ⟨[0], [0, 0, 0, 0, 0, 0, 0], rfl, by decide, rfl, rfl, rfl⟩, rfl, rfl, rfl⟩

end FastBer.Props
