import Verif.Props.Schema
import Verif.Model.Emit
import Verif.Proofs.EmitType
import Verif.Proofs.RepValue
import Verif.Proofs.DecodeComplete
import Verif.Proofs.Check
/-!
# C76-C78: the generated code implements the ASN.1 types

These theorems go all the way from the syntax tree of a schema to the octets: `generate` writes C++ declarations for the tree and gives
them their C++ meaning (`Model/Emit.lean`, `Model/Cpp.lean`); encoding and decoding with the types so defined is compared with X.690 read off
the ASN.1 types (`Encodes`, `Spec/Encoding.lean`).
-/
namespace FastBer.Props
open FastBer.Ast FastBer.Ast.Spec FastBer.Spec

/-- The compiler accepts the tree and the C++ compiler accepts its output; the types in it are those of `env`.  The tree obeys the
restrictions of `Spec/Supported.lean` and the rules of X.680 on tags (`Spec/Legal.lean`); the C++ objects for DEFAULT values, which are not modelled,
are objects of their types. -/
structure Compiled (lib : Lib) (tree : Tree) (env : Env) : Prop where
  supported : Supported tree
  legal : Legal tree
  defaults : ∀ T v d, lib.default T v = some d → T.Holds d
  output : ∃ fuel, generate lib fuel tree = .ok env

/-- An assigned type of the tree: `name` of module `mod` is `t`, whose own tags are not lost. -/
structure Assigned (tree : Tree) (mod : Module) (name : Name) (t : AType) : Prop where
  module : mod ∈ tree.modules
  assignment : ∃ a ∈ mod.assignments, a.name = name ∧ a.body = .type t
  tags : ¬ Lost tree mod t

theorem Assigned.occurs {tree : Tree} {mod : Module} {name : Name} {t : AType} (h : Assigned tree mod name t) : Occurs tree mod t := by
  obtain ⟨a, ha, _, hb⟩ := h.assignment
  exact .assigned h.module ha hb

theorem implements {lib : Lib} {tree : Tree} {env : Env} (hc : Compiled lib tree env) {mod : Module} {name : Name} {t : AType}
    (ha : Assigned tree mod name t) :
    ∃ T, env.typeOf mod.name name = some T ∧ T.Is noHoles lib tree mod t ∧ T.WF ∧ T.Unamb := by
  obtain ⟨a, ham, rfl, hb⟩ := ha.assignment
  obtain ⟨fuel, hg⟩ := hc.output
  obtain ⟨T, hT⟩ := generate_exists hc.supported hg ha.module ham hb
  have he := generate_entry hc.supported hg ha.module ham hb hT
  have his : T.Is noHoles lib tree mod t := ⟨he.1, he.2 ha.tags⟩
  exact ⟨T, hT, his, is_wf hc.supported hc.legal hc.defaults T mod t his (known_of_occurs hc.legal ha.occurs),
    is_unamb hc.legal T mod t his.1 (coreIn_of_occurs ha.occurs)⟩

/-- C76 (`_partial`): there is a C++ type for every assigned type of a supported schema; its objects hold values of the ASN.1 type; `encode` into a buffer
that is large enough writes an X.690 encoding of the value an object holds, for the ASN.1 type, with lengths in their shortest form (strings must have
been assigned, not decoded: those are written as they were received); and every value of the type whose simple values have room in the library can be held by such an
object.
Missing, because it is false: schemas that are not `Supported`, types whose tags are `Lost` (`C76_violated_*`). -/
theorem C76_encodes_partial {lib : Lib} {tree : Tree} {env : Env} (hc : Compiled lib tree env) {mod : Module} {name : Name} {t : AType}
    (ha : Assigned tree mod name t) :
    ∃ T, env.typeOf mod.name name = some T ∧
      (∀ o x e, T.Rep o x e → T.Fresh o → e.length < 2 ^ 64 → Spec.Value holdable tree mod t x ∧
        ∀ buf, e.length ≤ buf.length → ∃ buf', T.encode o buf = .ok (⟨true, e.length⟩, buf') ∧
          Encodes (shortest holdable) tree mod t x (buf'.take e.length)) ∧
      ∀ x, Spec.Value storable tree mod t x → ∃ o e, T.Rep o x e ∧ T.Fresh o := by
  obtain ⟨T, hT, his, hw, _⟩ := implements hc ha
  refine ⟨T, hT, ?_, fun x hx => value_holds hc.legal (s := sizeOf x) (fun _ _ _ h => h.elim) T mod t x his.1
    (own_ok (known_of_occurs hc.legal ha.occurs).bound his.2) (coreIn_of_occurs ha.occurs) (Nat.le_refl _) hx⟩
  intro o x e hr hf hl
  have hv := value_of_rep (fun _ _ _ h => h.elim) T mod t o x e his.1 hr
  refine ⟨hv, fun buf hb => ?_⟩
  obtain ⟨g1, _⟩ := (T.encLaws hw).writes hr hl
  have := g1 buf hb
  refine ⟨_, this, ?_⟩
  rw [List.take_left]
  exact encodes_of_rep (fun _ _ _ h => h.elim) T mod t o x e his hv hr hf

/-- C77 (`_partial`): a value that was encoded is decoded again: whatever follows the octets, and whatever the target object held before, decoding succeeds and the target then
holds the same value of the ASN.1 type and compares equal to the object encoded, if that equals itself. -/
theorem C77_round_trip_partial {lib : Lib} {tree : Tree} {env : Env} (hc : Compiled lib tree env) {mod : Module} {name : Name} {t : AType}
    (ha : Assigned tree mod name t) :
    ∃ T, env.typeOf mod.name name = some T ∧
      ∀ o x e, Spec.Value storable tree mod t x → T.Rep o x e → e.length < 2 ^ 64 →
        ∀ buf r buf', T.encode o buf = .ok (r, buf') → r.success = true → ∀ o0, T.Holds o0 → ∀ suffix,
          ∃ o', T.decode o0 (buf'.take r.length ++ suffix) = .ok (true, o') ∧ T.Rep o' x e ∧ (T.equal o' o = .ok true ↔ T.equal o o = .ok true) := by
  obtain ⟨T, hT, his, hw, hu⟩ := implements hc ha
  refine ⟨T, hT, ?_⟩
  intro o x e hv hr hl buf r buf' he hs o0 h0 suffix
  exact C33_round_trip_partial T hw hu hr (value_valid (fun _ _ _ h => h.elim) T mod t x his.1 hv) hl buf he hs h0 suffix

/-- C78 (`_partial`): every X.690 encoding of a value of the ASN.1 type with definite lengths (of up to eight octets, in any form, SET components in any order) whose simple values the
library can read is decoded, whatever follows it that does not overflow a header (`Sane`) and whatever the target held before, to that value.
Missing, because it is false: schemas that are not `Supported` (`C76_violated_*`), a mandatory untagged CHOICE in a SEQUENCE (`C44_violated_*`), indefinite lengths and strings in constructed form. -/
theorem C78_decodes_partial {lib : Lib} {tree : Tree} {env : Env} (hc : Compiled lib tree env) (hb : NoBareChoice tree) {mod : Module} {name : Name} {t : AType}
    (ha : Assigned tree mod name t) :
    ∃ T, env.typeOf mod.name name = some T ∧
      ∀ x e, Encodes (definite readable) tree mod t x e → e.length < 2 ^ 64 → ∀ suffix, Sane suffix → ∀ o0, T.Holds o0 →
        ∃ o' e', T.decode o0 (e ++ suffix) = .ok (true, o') ∧ T.Rep o' x e' := by
  obtain ⟨T, hT, his, hw, hu⟩ := implements hc ha
  have hg := is_guarded hc.legal hb T mod t his.1 (coreIn_of_occurs ha.occurs)
  refine ⟨T, hT, ?_⟩
  intro x e he hl suffix hs o0 h0
  obtain ⟨v, h1, h2, _, h3, h4⟩ := good_of_encodes (s := sizeOf x) (fun _ _ _ h => h.elim) T mod t x e his hw hu (Nat.le_refl _) he hl suffix hs
  obtain ⟨v', r, o', g1, g2, g3, g4⟩ := C65_decode_iff_reads T hw hu hg h4 (fun _ => ⟨v, h1, h2⟩) h0
  rw [h1] at g1
  cases g1
  have hr : r = true := g3.2 ⟨x, h3.reads⟩
  subst hr
  obtain ⟨y, e', a1, a2⟩ := g4 rfl
  rw [h3.only y a2] at a1
  exact ⟨o', e', g2, a1⟩

/-! ## A schema that meets the conditions -/

/-- ```
Shop DEFINITIONS IMPLICIT TAGS ::= BEGIN
Id ::= INTEGER
Item ::= SEQUENCE { id Id, label [0] UTF8String OPTIONAL, count [1] INTEGER DEFAULT 1, kind ENUMERATED {…} OPTIONAL }
Box ::= SEQUENCE { w INTEGER, h INTEGER }
Shape ::= CHOICE { radius [0] REAL, box [1] Box, item Item }
Order ::= SET { number Id, items [0] SEQUENCE OF Item, shape [1] Shape, paid BOOLEAN, due GeneralizedTime OPTIONAL, … }
END
Bank DEFINITIONS EXPLICIT TAGS ::= BEGIN
Bill ::= SEQUENCE { order [APPLICATION 5] Shop.Order, total [2] INTEGER, note [3] IMPLICIT OCTET STRING OPTIONAL }
END
``` -/
def shopTree : Tree := ⟨[
  ⟨"Shop", .implicit, [], [
    ⟨"Id", .type (.leaf .integer), []⟩,
    ⟨"Item", .type (.sequence [
      .mk "id" (.defined none "Id" []) false none none .static_,
      .mk "label" (.prefixed .contextSpecific 0 .automatic (.leaf (.charString 12))) true none none .static_,
      .mk "count" (.prefixed .contextSpecific 1 .automatic (.leaf .integer)) false (some (.int 1)) none .static_,
      .mk "kind" (.leaf .enumerated) true none none .static_] false), []⟩,
    ⟨"Box", .type (.sequence [.mk "w" (.leaf .integer) false none none .static_, .mk "h" (.leaf .integer) false none none .static_] false), []⟩,
    ⟨"Shape", .type (.choice [
      .mk "radius" (.prefixed .contextSpecific 0 .automatic (.leaf .real)),
      .mk "box" (.prefixed .contextSpecific 1 .automatic (.defined none "Box" [])),
      .mk "item" (.defined none "Item" [])] .static_), []⟩,
    ⟨"Order", .type (.set [
      .mk "number" (.defined none "Id" []) false none none .static_,
      .mk "items" (.prefixed .contextSpecific 0 .automatic (.seqOf none (.defined none "Item" []) .dynamic)) false none none .static_,
      .mk "shape" (.prefixed .contextSpecific 1 .automatic (.defined none "Shape" [])) false none none .static_,
      .mk "paid" (.leaf .boolean) false none none .static_,
      .mk "due" (.leaf .generalizedTime) true none none .static_] true), []⟩]⟩,
  ⟨"Bank", .explicit_, [], [
    ⟨"Bill", .type (.sequence [
      .mk "order" (.prefixed .application 5 .automatic (.defined (some "Shop") "Order" [])) false none none .static_,
      .mk "total" (.prefixed .contextSpecific 2 .automatic (.leaf .integer)) false none none .static_,
      .mk "note" (.prefixed .contextSpecific 3 .implicit (.leaf .octetString)) true none none .static_] false), []⟩]⟩]⟩

/-- The default value 1 of INTEGERs; times and REALs are compared by their contents. -/
def demoLib : Lib where
  realCmp a b := .ok (a == b)
  timeCmp a b := .ok (a == b)
  default
    | .leaf .int id, .int 1 => some (.raw (tagged id .primitive [1] ++ [0, 0, 0, 0, 0, 0, 0]))
    | _, _ => none

def demoItem : Ty := .seq (univ 16) <|
  .cons .mandatory [] (.leaf .int (univ 2)) <|
  .cons .optional [⟨.contextSpecific, 0⟩] (.leaf .str (ctx 0)) <|
  .cons (.default (.raw [0x81, 1, 1, 0, 0, 0, 0, 0, 0, 0])) [⟨.contextSpecific, 1⟩] (.leaf .int (ctx 1)) <|
  .cons .optional [⟨.universal, 10⟩] (.leaf .enum (univ 10)) .nil

def demoShape (id : ChoiceIdent) : Ty := .choice id <|
  .cons [⟨.contextSpecific, 0⟩] (.leaf (.real demoLib.realCmp) (ctx 0)) <|
  .cons [⟨.contextSpecific, 1⟩] (.seq (ctx 1) (.cons .mandatory [] (.leaf .int (univ 2)) (.cons .mandatory [] (.leaf .int (univ 2)) .nil))) <|
  .cons [⟨.universal, 16⟩] demoItem .nil

def demoOrder (id : Ident) : Ty := .set id true <|
  .cons .mandatory [⟨.universal, 2⟩] (.leaf .int (univ 2)) <|
  .cons .mandatory [⟨.contextSpecific, 0⟩] (.seqOf (ctx 0) demoItem) <|
  .cons .mandatory [⟨.contextSpecific, 1⟩] (demoShape (.tagged (ctx 1))) <|
  .cons .mandatory [⟨.universal, 1⟩] (.leaf .bool (univ 1)) <|
  .cons .optional [⟨.universal, 24⟩] (.leaf (.time demoLib.timeCmp) (univ 24)) .nil

def demoBill : Ty := .seq (univ 16) <|
  .cons .mandatory [] (demoOrder (.double ⟨.application, 5⟩ ⟨.universal, 17⟩)) <|
  .cons .mandatory [] (.leaf .int (.double ⟨.contextSpecific, 2⟩ ⟨.universal, 2⟩)) <|
  .cons .optional [⟨.contextSpecific, 3⟩] (.leaf .str (ctx 3)) .nil

/-- The output of the compiler. -/
def shopEnv : Env := ⟨[(("Bank", "Bill"), .type demoBill), (("Shop", "Order"), .type (demoOrder (univ 17))),
  (("Shop", "Shape"), .type (demoShape (.untagged [⟨.contextSpecific, 0⟩, ⟨.contextSpecific, 1⟩, ⟨.universal, 16⟩]))),
  (("Shop", "Box"), .type (.seq (univ 16) (.cons .mandatory [] (.leaf .int (univ 2)) (.cons .mandatory [] (.leaf .int (univ 2)) .nil)))),
  (("Shop", "Item"), .type demoItem), (("Shop", "Id"), .type (.leaf .int (univ 2)))], []⟩

theorem shop_generate : generate demoLib 20 shopTree = .ok shopEnv := by rfl

theorem shop_supported : Supported shopTree := Check.supported_sound (fuel := 20) (by decide +kernel)
theorem shop_legal : Legal shopTree := Check.legal_sound (fuel := 20) (by decide +kernel)
theorem shop_noBareChoice : NoBareChoice shopTree := Check.noBareChoice_sound (fuel := 20) (by decide +kernel)

theorem demoLib_defaults : ∀ T v d, demoLib.default T v = some d → T.Holds d := by
  intro T v d h
  unfold demoLib at h
  simp only at h
  split at h
  · rename_i id
    cases h
    exact ⟨.content [1], _, [1], [0, 0, 0, 0, 0, 0, 0], rfl, by decide, rfl, rfl, rfl⟩
  · cases h

/-- The schema is compiled; every type in it but none is lost. -/
theorem shop_compiled : Compiled demoLib shopTree shopEnv := ⟨shop_supported, shop_legal, demoLib_defaults, 20, shop_generate⟩

/-- The module `Shop`. -/
def shopModule : Module := shopTree.modules[0]

/-- `Order` without its name. -/
def orderType : AType := .set [
      .mk "number" (.defined none "Id" []) false none none .static_,
      .mk "items" (.prefixed .contextSpecific 0 .automatic (.seqOf none (.defined none "Item" []) .dynamic)) false none none .static_,
      .mk "shape" (.prefixed .contextSpecific 1 .automatic (.defined none "Shape" [])) false none none .static_,
      .mk "paid" (.leaf .boolean) false none none .static_,
      .mk "due" (.leaf .generalizedTime) true none none .static_] true

theorem order_assigned : Assigned shopTree shopModule "Order" orderType where
  module := by simp [shopTree, shopModule]
  assignment := ⟨⟨"Order", .type orderType, []⟩, by simp [shopTree, shopModule, orderType], rfl, rfl⟩
  tags := Check.lost_sound 5 _ _ rfl

/-- `{ number 7, items {}, shape box: { w 1, h 2 }, paid TRUE }`. -/
def orderVal : Val := .struct [.content [7], .list [], .alt 1 (.struct [.content [1], .content [2]]), .content [0xFF], .absent]

/-- An encoding with the components in another order, some lengths in the long form. -/
def orderBytes : Bytes := [0x31, 0x81, 21, 0xA1, 0x82, 0, 8, 0xA1, 6, 2, 1, 1, 2, 1, 2, 1, 1, 0xFF, 2, 0x81, 1, 7, 0xA0, 0]

theorem readable_one {k : Builtin} {b : UInt8} (h : storable k [b]) : readable k [b] := by
  refine ⟨h, ?_⟩
  rintro ⟨first, mid, tail, h1, _, _, h2⟩
  have : mid = [] := by cases mid with | nil => rfl | cons _ _ => cases h1
  subst this
  revert h2; decide

theorem order_encodes : Encodes (definite readable) shopTree shopModule orderType orderVal orderBytes := by
  refine .intro (Check.ownTags_sound 9 _ _ _ rfl) (Check.core_sound 9 _ _ _ _ rfl)
    (.set (es := [[2, 0x81, 1, 7], [0xA0, 0], [0xA1, 0x82, 0, 8, 0xA1, 6, 2, 1, 1, 2, 1, 2], [1, 1, 0xFF], []])
      (es' := [[0xA1, 0x82, 0, 8, 0xA1, 6, 2, 1, 1, 2, 1, 2], [1, 1, 0xFF], [2, 0x81, 1, 7], [0xA0, 0], []]) ?_ (by decide))
    ⟨[0x81, 21], .long (ds := [21]) (by decide) (by decide) (by decide), by decide +kernel⟩
  have int : ∀ {t : AType} {c : Bytes}, Check.ownTags shopTree 9 shopModule t = some [(.universal, 2)] → Check.core shopTree 9 shopModule t = some (shopModule, .leaf .integer) →
      c.length = 1 → Encodes (definite readable) shopTree shopModule t (.content c) (2 :: 1 :: c) := by
    intro t c h1 h2 h3
    obtain ⟨b, rfl⟩ := List.length_eq_one_iff.1 h3
    refine .intro (Check.ownTags_sound 9 _ _ _ h1) (Check.core_sound 9 _ _ _ _ h2) (.leaf ?_) ⟨[1], .short (by simp), rfl⟩
    exact readable_one (show _ ≤ _ from by simp)
  refine .mandatory ?_ (.mandatory ?_ (.mandatory ?_ (.mandatory ?_ (.absent (.nil _)))))
  · exact .intro (Check.ownTags_sound 9 _ _ _ rfl) (Check.core_sound 9 _ _ _ _ rfl) (.leaf (c := [7]) (readable_one (show _ ≤ _ from by decide)))
      ⟨[0x81, 1], .long (ds := [1]) (by decide) (by decide) (by decide), rfl⟩
  · exact .intro (Check.ownTags_sound 9 _ _ _ rfl) (Check.core_sound 9 _ _ _ _ rfl) (.seqOf (.nil _ _)) ⟨[0], .short (by decide), rfl⟩
  · refine .intro (Check.ownTags_sound 9 _ _ _ rfl) (Check.core_sound 9 _ _ _ _ rfl) (.choice (e := [0xA1, 6, 2, 1, 1, 2, 1, 2]) rfl ?_)
      ⟨[0x82, 0, 8], .long (ds := [0, 8]) (by decide) (by decide) (by decide), rfl⟩
    refine .intro (Check.ownTags_sound 9 _ _ _ rfl) (Check.core_sound 9 _ _ _ _ rfl) (.sequence (es := [[2, 1, 1], [2, 1, 2]]) ?_) ⟨[6], .short (by decide), rfl⟩
    exact .mandatory (int rfl rfl rfl) (.mandatory (int rfl rfl rfl) (.nil _))
  · exact .intro (Check.ownTags_sound 9 _ _ _ rfl) (Check.core_sound 9 _ _ _ _ rfl) (.leaf (c := [0xFF]) (readable_one rfl)) ⟨[1], .short (by decide), rfl⟩

/-- The conditions of C78 are met by `orderBytes`, so they are decoded; so they are when evaluated. -/
example : ∃ T, shopEnv.typeOf "Shop" "Order" = some T ∧ ∀ o0, T.Holds o0 → ∃ o' e', T.decode o0 (orderBytes ++ []) = .ok (true, o') ∧ T.Rep o' orderVal e' := by
  obtain ⟨T, h1, h2⟩ := C78_decodes_partial shop_compiled shop_noBareChoice order_assigned
  exact ⟨T, h1, h2 orderVal orderBytes order_encodes (by decide) [] sane_nil⟩

example : succeeded ((demoOrder (univ 17)).decode (.struct [.raw [2, 1, 0, 0, 0, 0, 0, 0, 0, 0], .list [], .alt 0 (.raw (0x80 :: 0 :: List.replicate 100 0)), .raw [1, 1, 0], .none]) orderBytes) = true := by
  decide +kernel

/-- It is a value of the type the library has room for, so some object holds it and C76 applies. -/
theorem order_value : Spec.Value storable shopTree shopModule orderType orderVal := by
  have int : ∀ {t : AType} {b : UInt8}, Check.core shopTree 9 shopModule t = some (shopModule, .leaf .integer) →
      Spec.Value storable shopTree shopModule t (.content [b]) := by
    intro t b h
    exact .intro (Check.core_sound 9 _ _ _ _ h) (.leaf (show _ ≤ _ by simp))
  refine .intro (Check.core_sound 9 _ _ _ _ rfl) (.set (.mandatory (int rfl) (.mandatory ?_ (.mandatory ?_ (.mandatory ?_ (.absent (.nil _)))))))
  · exact .intro (Check.core_sound 9 _ _ _ _ rfl) (.seqOf (by simp))
  · refine .intro (Check.core_sound 9 _ _ _ _ rfl) (.choice rfl (.intro (Check.core_sound 9 _ _ _ _ rfl) (.sequence ?_)))
    exact .mandatory (int rfl) (.mandatory (int rfl) (.nil _))
  · exact .intro (Check.core_sound 9 _ _ _ _ rfl) (.leaf rfl)

example : ∃ T o e, shopEnv.typeOf "Shop" "Order" = some T ∧ T.Rep o orderVal e ∧ T.Fresh o := by
  obtain ⟨T, h1, _, h2⟩ := C76_encodes_partial shop_compiled order_assigned
  obtain ⟨o, e, h3, h4⟩ := h2 _ order_value
  exact ⟨T, o, e, h1, h3, h4⟩

/-! ## Schemas the compiler mistranslates -/

/-- One module of types. -/
def oneModule (tagging : TagMode) (as : List (Name × AType)) : Tree := ⟨[⟨"M", tagging, [], as.map fun a => ⟨a.1, .type a.2, []⟩⟩]⟩
def plainComp (n : Name) (t : AType) : Ast.Comp := .mk n t false none none .static_
def optionalComp (n : Name) (t : AType) : Ast.Comp := .mk n t true none none .static_
def localRef (n : Name) : AType := .defined none n []
def listOf (t : AType) : AType := .seqOf none t .static_
def tagged0 (n : Nat) (t : AType) : AType := .prefixed .contextSpecific n .automatic t

/-- The compiler and the C++ compiler accept the tree, and the C++ type for `name` of module `M` is `T`. -/
def Yields (tree : Tree) (name : Name) (T : Ty) : Prop := ∀ lib fuel, ∃ env, generate lib (fuel + 20) tree = .ok env ∧ env.typeOf "M" name = some T

/-- `List ::= SEQUENCE OF INTEGER`, `Pair ::= SEQUENCE { list SEQUENCE OF BOOLEAN, other List }` in a module with IMPLICIT TAGS. -/
def captureTree : Tree := oneModule .implicit [("List", listOf (.leaf .integer)),
  ("Pair", .sequence [plainComp "list" (listOf (.leaf .boolean)), plainComp "other" (localRef "List")] false)]

/-- C76 is violated: the type of `other` is named in C++ like the type made up for the component `list`; `{ list {}, other { 5 } }` is not decoded. -/
theorem C76_violated_capture : Legal captureTree ∧ ∃ T, Yields captureTree "Pair" T ∧
    Encodes (definite readable) captureTree captureTree.modules[0] (.sequence [plainComp "list" (listOf (.leaf .boolean)), plainComp "other" (localRef "List")] false)
      (.struct [.list [], .list [.content [5]]]) [0x30, 7, 0x30, 0, 0x30, 3, 2, 1, 5] ∧
    succeeded (T.decode (.struct [.list [], .list []]) [0x30, 7, 0x30, 0, 0x30, 3, 2, 1, 5]) = false := by
  refine ⟨Check.legal_sound (fuel := 9) (by decide +kernel), .seq (univ 16) (.cons .mandatory [] (.seqOf (univ 16) (.leaf .bool (univ 1)))
    (.cons .mandatory [] (.seqOf (univ 16) (.leaf .bool (univ 1))) .nil)), fun lib f => ⟨_, rfl, rfl⟩, ?_, by decide +kernel⟩
  refine .intro (Check.ownTags_sound 9 _ _ _ rfl) (Check.core_sound 9 _ _ _ _ rfl) (.sequence (es := [[0x30, 0], [0x30, 3, 2, 1, 5]]) ?_) ⟨[7], .short (by decide), rfl⟩
  refine .mandatory ?_ (.mandatory ?_ (.nil _))
  · exact .intro (Check.ownTags_sound 9 _ _ _ rfl) (Check.core_sound 9 _ _ _ _ rfl) (.seqOf (.nil _ _)) ⟨[0], .short (by decide), rfl⟩
  · refine .intro (Check.ownTags_sound 9 _ _ _ rfl) (Check.core_sound 9 _ _ _ _ rfl) (.seqOf (es := [[2, 1, 5]]) (.cons ?_ (.nil _ _))) ⟨[3], .short (by decide), rfl⟩
    exact .intro (Check.ownTags_sound 9 _ _ _ rfl) (Check.core_sound 9 _ _ _ _ rfl) (.leaf (readable_one (show _ ≤ _ by decide))) ⟨[1], .short (by decide), rfl⟩

/-- `A ::= SEQUENCE { x INTEGER OPTIONAL }` in a module with AUTOMATIC TAGS. -/
def automaticTree : Tree := oneModule .automatic [("A", .sequence [optionalComp "x" (.leaf .integer)] false)]

/-- C76/C77/C78 are violated: with AUTOMATIC TAGS, OPTIONAL components are written with their automatic tag, but looked for under the tag of their type: `{ x 5 }` is written, and read as `{ }`. -/
theorem C76_violated_automatic_optional : Legal automaticTree ∧ ∃ T, Yields automaticTree "A" T ∧
    Encodes (definite readable) automaticTree automaticTree.modules[0] (.sequence [optionalComp "x" (.leaf .integer)] false)
      (.struct [.present (.content [5])]) [0x30, 3, 0x80, 1, 5] ∧
    T.encode (.struct [.some (.raw [0x80, 1, 5, 0, 0, 0, 0, 0, 0, 0])]) [0, 0, 0, 0, 0] = .ok (⟨true, 5⟩, [0x30, 3, 0x80, 1, 5]) ∧
    T.decode (.struct [.none]) [0x30, 3, 0x80, 1, 5] = .ok (true, .struct [.none]) := by
  refine ⟨Check.legal_sound (fuel := 9) (by decide +kernel), .seq (univ 16) (.cons .optional [⟨.universal, 2⟩] (.leaf .int (ctx 0)) .nil),
    fun lib f => ⟨_, rfl, rfl⟩, ?_, rfl, rfl⟩
  refine .intro (Check.ownTags_sound 9 _ _ _ rfl) (Check.core_sound 9 _ _ _ _ rfl) (.sequence (es := [[0x80, 1, 5]]) (.present ?_ (.nil _))) ⟨[3], .short (by decide), rfl⟩
  exact .intro (Check.ownTags_sound 9 _ _ _ rfl) (Check.core_sound 9 _ _ _ _ rfl) (.leaf (readable_one (show _ ≤ _ by decide))) ⟨[1], .short (by decide), rfl⟩

/-- `A ::= SEQUENCE { }`, `B ::= SEQUENCE { a A }` in a module with AUTOMATIC TAGS. -/
def automaticRefTree : Tree := oneModule .automatic [("A", .sequence [] false), ("B", .sequence [plainComp "a" (localRef "A")] false)]

/-- C76/C78 are violated: with AUTOMATIC TAGS, a component that is a reference to a SEQUENCE, SET or CHOICE does not get its tag, neither in encoding nor in decoding. -/
theorem C76_violated_automatic_reference : Legal automaticRefTree ∧ ∃ T, Yields automaticRefTree "B" T ∧
    Encodes (definite readable) automaticRefTree automaticRefTree.modules[0] (.sequence [plainComp "a" (localRef "A")] false) (.struct [.struct []]) [0x30, 2, 0xA0, 0] ∧
    succeeded (T.decode (.struct [.struct []]) [0x30, 2, 0xA0, 0]) = false ∧
    T.encode (.struct [.struct []]) [0, 0, 0, 0] = .ok (⟨true, 4⟩, [0x30, 2, 0x30, 0]) := by
  refine ⟨Check.legal_sound (fuel := 9) (by decide +kernel), .seq (univ 16) (.cons .mandatory [] (.seq (univ 16) .nil) .nil),
    fun lib f => ⟨_, rfl, rfl⟩, ?_, by decide +kernel, rfl⟩
  refine .intro (Check.ownTags_sound 9 _ _ _ rfl) (Check.core_sound 9 _ _ _ _ rfl) (.sequence (es := [[0xA0, 0]]) (.mandatory ?_ (.nil _))) ⟨[2], .short (by decide), rfl⟩
  exact .intro (Check.ownTags_sound 9 _ _ _ rfl) (Check.core_sound 9 _ _ _ _ rfl) (.sequence (.nil _)) ⟨[0], .short (by decide), rfl⟩

/-- `A ::= SEQUENCE { }`, `B ::= [1] A` in a module with IMPLICIT TAGS. -/
def lostTree : Tree := oneModule .implicit [("A", .sequence [] false), ("B", tagged0 1 (localRef "A"))]

/-- C76/C78 are violated: a tag in front of a reference to a SEQUENCE, SET or CHOICE is lost if it is not in a component or alternative. -/
theorem C76_violated_lost_tag : Legal lostTree ∧ Supported lostTree ∧ ∃ T, Yields lostTree "B" T ∧
    Encodes (definite readable) lostTree lostTree.modules[0] (tagged0 1 (localRef "A")) (.struct []) [0xA1, 0] ∧
    succeeded (T.decode (.struct []) [0xA1, 0]) = false ∧ T.encode (.struct []) [0, 0] = .ok (⟨true, 2⟩, [0x30, 0]) := by
  refine ⟨Check.legal_sound (fuel := 9) (by decide +kernel), Check.supported_sound (fuel := 9) (by decide +kernel), .seq (univ 16) .nil,
    fun lib f => ⟨_, rfl, rfl⟩, ?_, by decide +kernel, rfl⟩
  exact .intro (Check.ownTags_sound 9 _ _ _ rfl) (Check.core_sound 9 _ _ _ _ rfl) (.sequence (.nil _)) ⟨[0], .short (by decide), rfl⟩

/-- `Ch ::= CHOICE { n NULL }`, `C ::= SEQUENCE { c [0] Ch }` in a module with EXPLICIT TAGS. -/
def taggedChoiceTree : Tree := oneModule .explicit_ [("Ch", .choice [.mk "n" (.leaf .null)] .static_), ("C", .sequence [plainComp "c" (tagged0 0 (localRef "Ch"))] false)]

/-- C76/C78 are violated: a tagged CHOICE in a module with EXPLICIT TAGS gets a second tag, universal 0. -/
theorem C76_violated_tagged_choice : Legal taggedChoiceTree ∧ ∃ T, Yields taggedChoiceTree "C" T ∧
    Encodes (definite readable) taggedChoiceTree taggedChoiceTree.modules[0] (.sequence [plainComp "c" (tagged0 0 (localRef "Ch"))] false)
      (.struct [.alt 0 (.content [])]) [0x30, 4, 0xA0, 2, 5, 0] ∧
    succeeded (T.decode (.struct [.alt 0 (.raw [5, 0])]) [0x30, 4, 0xA0, 2, 5, 0]) = false ∧
    T.encode (.struct [.alt 0 (.raw [5, 0])]) [0, 0, 0, 0, 0, 0, 0, 0] = .ok (⟨true, 8⟩, [0x30, 6, 0xA0, 4, 0x20, 2, 5, 0]) := by
  refine ⟨Check.legal_sound (fuel := 9) (by decide +kernel), .seq (univ 16) (.cons .mandatory [] (.choice (.tagged (.double ⟨.contextSpecific, 0⟩ ⟨.universal, 0⟩))
    (.cons [⟨.universal, 5⟩] (.leaf .null (univ 5)) .nil)) .nil), fun lib f => ⟨_, rfl, rfl⟩, ?_, by decide +kernel, rfl⟩
  refine .intro (Check.ownTags_sound 9 _ _ _ rfl) (Check.core_sound 9 _ _ _ _ rfl) (.sequence (es := [[0xA0, 2, 5, 0]]) (.mandatory ?_ (.nil _))) ⟨[4], .short (by decide), rfl⟩
  refine .intro (Check.ownTags_sound 9 _ _ _ rfl) (Check.core_sound 9 _ _ _ _ rfl) (.choice (i := 0) rfl (e := [5, 0]) ?_) ⟨[2], .short (by decide), rfl⟩
  exact .intro (Check.ownTags_sound 9 _ _ _ rfl) (Check.core_sound 9 _ _ _ _ rfl) (.leaf (c := []) ⟨rfl, by rintro ⟨_, _, _, h, _⟩; cases h⟩) ⟨[0], .short (by decide), rfl⟩

/-! ## C79: output that does not compile -/

/-- The compiler accepts the tree, but its output is not valid C++. -/
def Broken (tree : Tree) : Prop := ∀ lib fuel, generate lib (fuel + 20) tree = .throw .cpp

/-- C79 is violated: `L ::= [1] SEQUENCE OF NULL`, `K ::= L`. -/
theorem C79_violated_tagged_list : let tree := oneModule .implicit [("L", tagged0 1 (listOf (.leaf .null))), ("K", localRef "L")]
    Legal tree ∧ Broken tree := ⟨Check.legal_sound (fuel := 9) (by decide +kernel), fun _ _ => rfl⟩

/-- C79 is violated: `L ::= SEQUENCE OF NULL`, `K ::= L`, `J ::= K`. -/
theorem C79_violated_list_chain : let tree := oneModule .implicit [("L", listOf (.leaf .null)), ("K", localRef "L"), ("J", localRef "K")]
    Legal tree ∧ Broken tree := ⟨Check.legal_sound (fuel := 9) (by decide +kernel), fun _ _ => rfl⟩

/-- C79 is violated: `L ::= SEQUENCE OF NULL` in module `M`, `K ::= M.L` in module `N`. -/
theorem C79_violated_imported_list :
    let tree : Tree := ⟨[⟨"M", .implicit, [], [⟨"L", .type (listOf (.leaf .null)), []⟩]⟩, ⟨"N", .implicit, [], [⟨"K", .type (.defined (some "M") "L" []), []⟩]⟩]⟩
    Legal tree ∧ Broken tree := ⟨Check.legal_sound (fuel := 9) (by decide +kernel), fun _ _ => rfl⟩

/-- C79 is violated: `Age ::= SEQUENCE { age SEQUENCE { } }`: the functions of the inner struct, which is called `Age_`, are defined for `Age::Age`. -/
theorem C79_violated_same_name : let tree := oneModule .implicit [("Age", .sequence [plainComp "age" (.sequence [] false)] false)]
    Legal tree ∧ Supported tree ∧ Broken tree :=
  ⟨Check.legal_sound (fuel := 9) (by decide +kernel), Check.supported_sound (fuel := 9) (by decide +kernel), fun _ _ => rfl⟩

/-- C79 is violated: `E ::= ENUMERATED {…}` in module `M`, `S ::= SEQUENCE { a M.E, b M.E }` in module `N`: `EValues` is declared twice. -/
theorem C79_violated_imported_enumerated :
    let tree : Tree := ⟨[⟨"M", .implicit, [], [⟨"E", .type (.leaf .enumerated), []⟩]⟩,
      ⟨"N", .implicit, [], [⟨"S", .type (.sequence [plainComp "a" (.defined (some "M") "E" []), plainComp "b" (.defined (some "M") "E" [])] false), []⟩]⟩]⟩
    Legal tree ∧ Supported tree ∧ Broken tree :=
  ⟨Check.legal_sound (fuel := 9) (by decide +kernel), Check.supported_sound (fuel := 9) (by decide +kernel), fun _ _ => rfl⟩

end FastBer.Props
