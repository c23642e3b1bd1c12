import Verif.Props.Emit
import Verif.Props.Recursive
import Verif.Proofs.ForwardValue
/-!
# C76-C78 for schemas with circular references

As in `Props/Emit.lean`, but types may refer to types that are defined later, themselves included: the output is read with its forward
declarations (`Model/Forward.lean`), and the generated functions call each other recursively (`Model/Recursive.lean`).  `Returns f a`: the call returns `a` if the call stack is large
enough.
-/
namespace FastBer

/-- The object `o` of type `n` holds the value `x`, `e` is its encoding, and its strings have been assigned, not decoded. -/
def REnv.RepFresh {ι : Type} (E : REnv ι) (n : ι) (o : Obj) (x : Val) (e : Bytes) : Prop :=
  ∃ k, (E.unfold E.void k n).Rep o x e ∧ (E.unfold E.void k n).Fresh o

end FastBer

namespace FastBer.Ast.Fwd
open Spec FastBer.Spec

theorem withId_init {id : CId} {T T' : RTy Key} (hr : T.isRef = false) (h : withId id T = .ok T') (γ : Key → Codec) : (T'.codec γ).init = (T.codec γ).init := by
  cases T with
  | ref k => cases hr
  | leaf _ _ => cases h
  | seqOf _ _ => cases h
  | seq i fs =>
    rw [withId] at h
    obtain ⟨j, h1, h2⟩ := Res.bind_eq_ok.1 h
    cases h2; rfl
  | set i ext fs =>
    rw [withId] at h
    obtain ⟨j, h1, h2⟩ := Res.bind_eq_ok.1 h
    cases h2; rfl
  | choice cid as => rw [withId] at h; cases h; rfl

/-- Identifiers make no difference to default construction. -/
theorem program_constructible {env : Env} {k : Nat}
    (h : ∀ m ref T, env.typeOf m ref = some T → ∃ o, env.program.new ⟨m, ref, none⟩ k = .ok o) : ∃ k, ∀ n, ∃ o, env.program.new n k = .ok o := by
  cases k with
  | zero =>
    refine ⟨1, fun n => ?_⟩
    rcases program_cases env n with h1 | ⟨T, hT, _⟩
    · unfold REnv.new REnv.program REnv.approx
      rw [h1]
      exact ⟨_, rfl⟩
    · obtain ⟨o, ho⟩ := h _ _ T hT
      cases ho
  | succ k =>
    refine ⟨k + 1, fun n => ?_⟩
    rcases program_cases env n with h1 | ⟨T, hT, hr, h2⟩
    · unfold REnv.new REnv.program REnv.approx
      rw [h1]
      exact ⟨_, rfl⟩
    · obtain ⟨o, ho⟩ := h _ _ T hT
      refine ⟨o, ?_⟩
      unfold REnv.new REnv.program REnv.approx at ho ⊢
      rw [program_none hT hr] at ho
      rcases h2 with ⟨_, h3⟩ | ⟨id, T', _, hw, _, h3⟩
      · rw [h3]; exact ho
      · rw [h3, withId_init hr hw]; exact ho

end FastBer.Ast.Fwd

namespace FastBer.Props
open FastBer.Ast FastBer.Ast.Spec FastBer.Spec

/-- The compiler accepts the tree, and the C++ compiler accepts its output; its types are those of `env`.  The other conditions are those of
`Compiled`; and every type can be default constructed (`C90_violated_default` is one that cannot). -/
structure RCompiled (lib : Lib) (tree : Tree) (env : Fwd.Env) : Prop where
  supported : Supported tree
  legal : Legal tree
  defaults : ∀ T v d, lib.default T v = some d → T.Holds d
  output : ∃ fuel, Fwd.generate lib fuel tree = .ok env
  constructible : ∃ k, ∀ m ref T, env.typeOf m ref = some T → ∃ o, env.program.new ⟨m, ref, none⟩ k = .ok o

theorem RCompiled.linked {lib : Lib} {tree : Tree} {env : Fwd.Env} (hc : RCompiled lib tree env) : Fwd.Linked lib tree env.program := by
  obtain ⟨fuel, hg⟩ := hc.output
  exact Fwd.program_linked hc.supported hc.legal hg

theorem RCompiled.ok {lib : Lib} {tree : Tree} {env : Fwd.Env} (hc : RCompiled lib tree env) : env.program.Ok := by
  obtain ⟨fuel, hg⟩ := hc.output
  obtain ⟨k, hk⟩ := hc.constructible
  exact Fwd.program_ok hc.supported hc.legal hc.defaults hg (Fwd.program_constructible hk)

theorem RCompiled.fits {lib : Lib} {tree : Tree} {env : Fwd.Env} (hc : RCompiled lib tree env) {mod : Module} {name : Name} {t : AType}
    (ha : Assigned tree mod name t) : (∃ T, env.typeOf mod.name name = some T) ∧ Fwd.Fits lib tree env.program ⟨mod.name, name, none⟩ mod t := by
  obtain ⟨a, ham, rfl, hb⟩ := ha.assignment
  obtain ⟨fuel, hg⟩ := hc.output
  obtain ⟨T, hT, hr⟩ := Fwd.generate_exists hc.supported hg ha.module ham hb
  have he := Fwd.generate_entry hc.supported hg ha.module ham hb hT
  refine ⟨⟨T, hT⟩, ?_, known_of_occurs hc.legal ha.occurs, .inl ha.occurs⟩
  rw [Fwd.program_none hT hr]
  exact ⟨he.1, he.2.1 ha.tags⟩

/-- C76 (`_partial`), for schemas with circular references: the output defines a C++ type for every assigned type of a supported schema; its objects hold values of the ASN.1 type; `encode` into a buffer that
is large enough returns and has written an X.690 encoding of the value for the ASN.1 type; and every value of the type whose simple values have room in the library,
however deep, can be held by such an object.  Missing: as in `C76_encodes_partial`, and types that cannot be default constructed. -/
theorem C76_encodes_recursive_partial {lib : Lib} {tree : Tree} {env : Fwd.Env} (hc : RCompiled lib tree env) {mod : Module} {name : Name} {t : AType}
    (ha : Assigned tree mod name t) :
    (∃ T, env.typeOf mod.name name = some T) ∧
      (∀ o x e, env.program.RepFresh ⟨mod.name, name, none⟩ o x e → e.length < 2 ^ 64 → Spec.Value holdable tree mod t x ∧
        ∀ buf, e.length ≤ buf.length → ∃ buf', Returns (env.program.encode ⟨mod.name, name, none⟩ o buf) (.ok (⟨true, e.length⟩, buf')) ∧
          Encodes (shortest holdable) tree mod t x (buf'.take e.length)) ∧
      ∀ x, Spec.Value storable tree mod t x → ∃ o e, env.program.RepFresh ⟨mod.name, name, none⟩ o x e := by
  obtain ⟨h1, hf⟩ := hc.fits ha
  refine ⟨h1, ?_, ?_⟩
  · rintro o x e ⟨k, hr, hfr⟩ hl
    have hv := Fwd.unfold_value hc.supported hc.legal hc.linked hc.ok k _ mod t hf o x e hr
    refine ⟨hv, fun buf hb => ⟨_, (C90_encode hc.ok ⟨k, hr⟩ hl buf).2.1 hb, ?_⟩⟩
    rw [List.take_left]
    exact Fwd.unfold_encodes hc.supported hc.legal hc.linked hc.ok k _ mod t hf o x e hv hr hfr
  · intro x hx
    obtain ⟨o, e, h2⟩ := Fwd.unfold_holds hc.supported hc.legal hc.linked hc.ok (sizeOf x) _ mod t hf x (Nat.le_refl _) hx
    exact ⟨o, e, _, h2⟩

/-- C77 (`_partial`), for schemas with circular references: a value that was encoded is decoded again, whatever follows the octets and whatever the target object held before, and compares
equal to the object encoded, if that equals itself. -/
theorem C77_round_trip_recursive_partial {lib : Lib} {tree : Tree} {env : Fwd.Env} (hc : RCompiled lib tree env) {mod : Module} {name : Name} {t : AType}
    (ha : Assigned tree mod name t) :
    ∀ o x e, Spec.Value storable tree mod t x → env.program.Rep ⟨mod.name, name, none⟩ o x e → e.length < 2 ^ 64 →
      ∀ buf, e.length ≤ buf.length → ∀ o0, env.program.Holds ⟨mod.name, name, none⟩ o0 → ∀ suffix,
        ∃ buf' o', Returns (env.program.encode ⟨mod.name, name, none⟩ o buf) (.ok (⟨true, e.length⟩, buf')) ∧
          Returns (env.program.decode ⟨mod.name, name, none⟩ o0 (buf'.take e.length ++ suffix)) (.ok (true, o')) ∧
          env.program.Rep ⟨mod.name, name, none⟩ o' x e ∧
          (Returns (env.program.equal ⟨mod.name, name, none⟩ o' o) (.ok true) ↔ Returns (env.program.equal ⟨mod.name, name, none⟩ o o) (.ok true)) := by
  obtain ⟨_, hf⟩ := hc.fits ha
  intro o x e hv hr hl buf hb o0 h0 suffix
  exact C90_round_trip hc.ok (hc.linked.unamb hc.supported hc.legal) hr
    (fun k => Fwd.unfold_valid hc.supported hc.legal hc.linked hc.ok k _ mod t hf x hv) hl hb h0 suffix

/-- C78 (`_partial`), for schemas with circular references: every X.690 encoding of a value of the ASN.1 type with definite lengths whose simple values the library can read is decoded, however deep,
whatever follows it that does not overflow a header (`Sane`) and whatever the target held before, to that value.  Missing: as in `C78_decodes_partial`. -/
theorem C78_decodes_recursive_partial {lib : Lib} {tree : Tree} {env : Fwd.Env} (hc : RCompiled lib tree env) (hb : NoBareChoice tree) {mod : Module} {name : Name} {t : AType}
    (ha : Assigned tree mod name t) :
    ∀ x e, Encodes (definite readable) tree mod t x e → e.length < 2 ^ 64 → ∀ suffix, Sane suffix →
      ∀ o0, env.program.Holds ⟨mod.name, name, none⟩ o0 →
        ∃ o' e', Returns (env.program.decode ⟨mod.name, name, none⟩ o0 (e ++ suffix)) (.ok (true, o')) ∧ env.program.Rep ⟨mod.name, name, none⟩ o' x e' := by
  obtain ⟨_, hf⟩ := hc.fits ha
  intro x e he hl suffix hs o0 h0
  obtain ⟨K, hK⟩ := hc.ok.reads_iff ⟨mod.name, name, none⟩ (e ++ suffix).length
  obtain ⟨v, h1, h2, _, h3, h4⟩ := Fwd.unfold_good hc.supported hc.legal hc.linked hc.ok (max K (sizeOf x)) _ mod t hf x e (by omega) he hl suffix hs
  obtain ⟨p1, p2⟩ := Parsed.of_assign h1
  have hiff := hK (max K (sizeOf x)) (by omega) v p1 (by omega)
  obtain ⟨v', r, o', g1, g2, g3, g4⟩ := C91_decode_iff_reads hc.ok (hc.linked.unamb hc.supported hc.legal)
    (hc.linked.guarded hc.supported hc.legal hb) h4 (fun _ => ⟨v, h1, h2⟩) h0
  rw [h1] at g1
  cases g1
  have hr : r = true := g3.2 ⟨x, (hiff x).2 h3.reads⟩
  subst hr
  obtain ⟨y, e', a1, a2⟩ := g4 rfl
  rw [h3.only y ((hiff y).1 a2)] at a1
  exact ⟨o', e', g2, a1⟩

/-- C90, for the types of a compiled schema: default construction returns an object that holds a value of the ASN.1 type; `encoded_length` of an object that holds a value is the length of its encoding, `encode` writes just that or, if there is no room,
fails within the buffer. -/
theorem C90_generated_partial {lib : Lib} {tree : Tree} {env : Fwd.Env} (hc : RCompiled lib tree env) {mod : Module} {name : Name} {t : AType}
    (ha : Assigned tree mod name t) :
    (∃ o x e, Returns (env.program.new ⟨mod.name, name, none⟩) (.ok o) ∧ env.program.Rep ⟨mod.name, name, none⟩ o x e ∧ Spec.Value holdable tree mod t x) ∧
    ∀ o x e, env.program.Rep ⟨mod.name, name, none⟩ o x e → e.length < 2 ^ 64 → ∀ buf,
      Returns (env.program.encodedLength ⟨mod.name, name, none⟩ o) e.length ∧
      (e.length ≤ buf.length → Returns (env.program.encode ⟨mod.name, name, none⟩ o buf) (.ok (⟨true, e.length⟩, e ++ buf.drop e.length))) ∧
      (buf.length < e.length → ∃ buf', Returns (env.program.encode ⟨mod.name, name, none⟩ o buf) (.ok (⟨false, 0⟩, buf')) ∧ buf'.length = buf.length) := by
  obtain ⟨_, hf⟩ := hc.fits ha
  refine ⟨?_, fun o x e hr hl buf => C90_encode hc.ok hr hl buf⟩
  obtain ⟨o, h1, x, e, k, h2⟩ := C90_new hc.ok ⟨mod.name, name, none⟩
  exact ⟨o, x, e, h1, ⟨k, h2⟩, Fwd.unfold_value hc.supported hc.legal hc.linked hc.ok k _ mod t hf o x e h2⟩

/-- C91, for the types of a compiled schema: decoding any input that overflows no header (and begins with an element, if the type is an untagged CHOICE) into any object returns, with calls nested no deeper than a constant times the
length of the input; the object then holds a value of the ASN.1 type.  Missing, because it is false: a mandatory untagged CHOICE in a SEQUENCE. -/
theorem C91_generated_partial {lib : Lib} {tree : Tree} {env : Fwd.Env} (hc : RCompiled lib tree env) (hb : NoBareChoice tree) :
    ∃ c, ∀ {mod : Module} {name : Name} {t : AType}, Assigned tree mod name t → ∀ bs, Sane bs → (OwnTags tree mod t [] → StartsElement bs) →
      ∀ o0, env.program.Holds ⟨mod.name, name, none⟩ o0 → ∃ r o', (∀ k, c * (bs.length + 1) ≤ k → env.program.decode ⟨mod.name, name, none⟩ o0 bs k = .ok (r, o')) ∧
        ∃ x e, env.program.Rep ⟨mod.name, name, none⟩ o' x e ∧ Spec.Value holdable tree mod t x := by
  obtain ⟨c, h1⟩ := C91_depth hc.ok
  refine ⟨c, fun {mod name t} ha bs hs hu o0 h0 => ?_⟩
  obtain ⟨_, hf⟩ := hc.fits ha
  have hu' : (env.program.one ⟨mod.name, name, none⟩).isUntaggedChoice → StartsElement bs := by
    intro h
    refine hu ?_
    rcases Fwd.is_cases (hc.linked.proper _) hf.is with ⟨_, _, _, ho, _⟩ | ⟨hne, _⟩
    · exact ho
    · refine absurd h (fun h => ?_)
      unfold REnv.one at h
      cases hk : env.program ⟨mod.name, name, none⟩ with
      | choice id as =>
        rw [hk] at h
        cases id with
        | untagged ids => exact hne ids as hk
        | tagged id => exact h
      | ref k => exact hc.linked.notRef _ _ hk
      | _ => rw [hk] at h; exact h
  obtain ⟨r, o', h2, x, e, h3⟩ := C91_decode_safe_partial hc.ok (hc.linked.guarded hc.supported hc.legal hb) hs hu' h0
  refine ⟨r, o', ?_, x, e, h3, ?_⟩
  · obtain ⟨K, hK⟩ := h2
    intro k hk
    refine Eq.trans ?_ (hK (max K k) (by omega))
    unfold REnv.decode
    cases hp : BerView.parse bs with
    | ub => rfl
    | loop => rfl
    | ok v => exact h1 _ bs v o0 k _ hp hk (by omega) _ _ (fun _ => rfl) (fun _ => rfl)
  · obtain ⟨k, h3⟩ := h3
    exact Fwd.unfold_value hc.supported hc.legal hc.linked hc.ok k _ mod t hf o' x e h3

/-! ## The circular schema of the repository -/

/-- The types of /repo/testfiles/circular.asn, in an order and with the storage of the output of `resolve`. -/
def cycleTree : Tree := ⟨[⟨"Circular", .implicit, [], [
  ⟨"CircularSequence1", .type (.sequence [
    .mk "name" (.leaf .octetString) false none none .static_,
    .mk "cs2" (.defined none "CircularSequence2" []) true none none .dynamic] false), []⟩,
  ⟨"CircularSequence2", .type (.sequence [.mk "cs1" (.defined none "CircularSequence1" []) false none none .static_] false), []⟩,
  ⟨"CircularSequenceOf2", .type (.seqOf none (.defined none "CircularSequenceOf1" []) .dynamic), []⟩,
  ⟨"CircularSequenceOf1", .type (.sequence [.mk "sequence" (.defined none "CircularSequenceOf2" []) false none none .static_] false), []⟩,
  ⟨"MyInt", .type (.leaf .integer), []⟩,
  ⟨"CircularChoice1", .type (.choice [
    .mk "int" (.leaf .integer),
    .mk "choice" (.prefixed .contextSpecific 1 .explicit_ (.defined none "CircularChoice2" [])),
    .mk "seq" (.sequence [.mk "inner" (.sequence [.mk "number" (.defined none "MyInt" []) false none none .static_] false) false none none .static_] false),
    .mk "enum" (.leaf .enumerated)] .dynamic), []⟩,
  ⟨"CircularChoice2", .type (.sequence [
    .mk "str" (.leaf .octetString) false none none .static_,
    .mk "choice" (.defined none "CircularChoice1" []) false none none .static_] false), []⟩,
  ⟨"SelfReference", .type (.choice [
    .mk "str" (.prefixed .contextSpecific 0 .automatic (.leaf .octetString)),
    .mk "self" (.prefixed .contextSpecific 1 .automatic (.defined none "SelfReference" []))] .dynamic), []⟩]⟩]⟩

def cycleChoice : RTy Fwd.Key := .choice (.untagged [⟨.universal, 2⟩, ⟨.contextSpecific, 1⟩, ⟨.universal, 16⟩, ⟨.universal, 10⟩]) <|
  .cons [⟨.universal, 2⟩] (.leaf .int (univ 2)) <|
  .cons [⟨.contextSpecific, 1⟩] (.ref ⟨"Circular", "CircularChoice2", some (.double (.ofTag .contextSpecific 1) (.ofUniversal 16))⟩) <|
  .cons [⟨.universal, 16⟩] (.seq (univ 16) (.cons .mandatory [] (.seq (univ 16) (.cons .mandatory [] (.leaf .int (univ 2)) .nil)) .nil)) <|
  .cons [⟨.universal, 10⟩] (.leaf .enum (univ 10)) .nil

/-- `CircularSequence1`. -/
def cycleSeq : RTy Fwd.Key := .seq (univ 16) <|
  .cons .mandatory [] (.leaf .str (univ 4)) (.cons .optional [⟨.universal, 16⟩] (.ref ⟨"Circular", "CircularSequence2", none⟩) .nil)

/-- The output of the compiler. -/
def cycleEnv : Fwd.Env := ⟨[
  (("Circular", "SelfReference"), .type (.choice (.untagged [⟨.contextSpecific, 0⟩, ⟨.contextSpecific, 1⟩]) <|
    .cons [⟨.contextSpecific, 0⟩] (.leaf .str (ctx 0)) <|
    .cons [⟨.contextSpecific, 1⟩] (.ref ⟨"Circular", "SelfReference", some (.single (.ofTag .contextSpecific 1))⟩) .nil)),
  (("Circular", "CircularChoice2"), .type (.seq (univ 16) (.cons .mandatory [] (.leaf .str (univ 4)) (.cons .mandatory [] cycleChoice .nil)))),
  (("Circular", "CircularChoice1"), .type cycleChoice),
  (("Circular", "MyInt"), .type (.leaf .int (univ 2))),
  (("Circular", "CircularSequenceOf1"), .type (.seq (univ 16) (.cons .mandatory [] (.seqOf (univ 16) (.ref ⟨"Circular", "CircularSequenceOf1", none⟩)) .nil))),
  (("Circular", "CircularSequenceOf2"), .type (.seqOf (univ 16) (.ref ⟨"Circular", "CircularSequenceOf1", none⟩))),
  (("Circular", "CircularSequenceOf2Contained"), .type (.ref ⟨"Circular", "CircularSequenceOf1", none⟩)),
  (("Circular", "CircularSequence2"), .type (.seq (univ 16) (.cons .mandatory [] cycleSeq .nil))),
  (("Circular", "CircularSequence1"), .type cycleSeq)], []⟩

theorem cycle_generate : Fwd.generate demoLib 20 cycleTree = .ok cycleEnv := by rfl

/-- Every type of the output can be default constructed with calls nested `k` deep. -/
def constructs (env : Fwd.Env) (k : Nat) : Bool := env.spaces.all fun p =>
  match env.program.new ⟨p.1.1, p.1.2, none⟩ k with
  | .ok _ => true
  | _ => false

theorem constructs_sound {env : Fwd.Env} {k : Nat} (h : constructs env k = true) :
    ∃ k, ∀ m ref T, env.typeOf m ref = some T → ∃ o, env.program.new ⟨m, ref, none⟩ k = .ok o := by
  refine ⟨k, fun m ref T hT => ?_⟩
  have h1 := List.all_eq_true.1 h _ (lookup_mem (Fwd.typeOf_lookup hT))
  dsimp only at h1
  split at h1
  · rename_i o ho
    exact ⟨o, ho⟩
  · cases h1

theorem cycle_supported : Supported cycleTree := Check.supported_sound (fuel := 20) (by decide +kernel)
theorem cycle_legal : Legal cycleTree := Check.legal_sound (fuel := 20) (by decide +kernel)

/-- The conditions of `RCompiled` are met. -/
theorem cycle_compiled : RCompiled demoLib cycleTree cycleEnv :=
  ⟨cycle_supported, cycle_legal, demoLib_defaults, ⟨20, cycle_generate⟩, constructs_sound (k := 5) (by decide +kernel)⟩

def cycleModule : Module := cycleTree.modules[0]
def cycleType : AType := .sequence [
    .mk "name" (.leaf .octetString) false none none .static_,
    .mk "cs2" (.defined none "CircularSequence2" []) true none none .dynamic] false

theorem cycle_assigned : Assigned cycleTree cycleModule "CircularSequence1" cycleType where
  module := by simp [cycleTree, cycleModule]
  assignment := ⟨⟨"CircularSequence1", .type cycleType, []⟩, by simp [cycleTree, cycleModule, cycleType], rfl, rfl⟩
  tags := Check.lost_sound 5 _ _ rfl

/-- `{ name "", cs2 { cs1 { name "", cs2 … { cs1 { name "" } } … } } }`. -/
def cycleVal : Nat → Val
  | 0 => .struct [.content [], .absent]
  | j + 1 => .struct [.content [], .present (.struct [cycleVal j])]

theorem cycle_value : ∀ j, Spec.Value storable cycleTree cycleModule cycleType (cycleVal j)
  | 0 => .intro (Check.core_sound 9 _ _ _ _ rfl) (.sequence (.mandatory (.intro (Check.core_sound 9 _ _ _ _ rfl) (.leaf (k := .octetString) (c := []) (show ([] : Bytes).length < 2 ^ 63 by decide))) (.absent (.nil _))))
  | j + 1 => by
    refine .intro (Check.core_sound 9 _ _ _ _ rfl) (.sequence (.mandatory (.intro (Check.core_sound 9 _ _ _ _ rfl) (.leaf (k := .octetString) (c := []) (show ([] : Bytes).length < 2 ^ 63 by decide))) (.present ?_ (.nil _))))
    refine .intro (Check.core_sound 9 _ _ _ _ rfl) (.sequence (.mandatory ?_ (.nil _)))
    cases cycle_value j with
    | intro hc hb =>
      refine .intro (.reference (m' := cycleModule) (t := cycleType) ?_ hc) hb
      rfl

/-- Values of any depth are held by objects, to which C76 and C77 apply. -/
example (j : Nat) : ∃ o e, cycleEnv.program.RepFresh ⟨"Circular", "CircularSequence1", none⟩ o (cycleVal j) e :=
  (C76_encodes_recursive_partial cycle_compiled cycle_assigned).2.2 _ (cycle_value j)

end FastBer.Props
