import Verif.Proofs.ShowMore
import Verif.Props.Viewer
import Verif.Props.Emit
/-!
# C99: printing objects of generated types

`p.show host o` is the text `os << object` writes (`Model/Show.lean`): `.ok (some text)`, or `.ok none` if the operator throws.
`p.Describes real x j` (`Spec/Show.lean`): the JSON value `j` tells what the value `x` is.
-/
namespace FastBer.Props
open FastBer.Show FastBer.Spec FastBer.Ast FastBer.Ast.Spec FastBer.Json.Spec FastBer.Viewer FastBer.Viewer.Spec

/-- C99.  Printing an object that holds the value `x` writes a JSON text, and what it says is what `x` is.  Partial: text in the value has
no quotation marks and backslashes, an ENUMERATED has one of its numbers, there are no times, and how a REAL is shown comes from outside
(`Showable`). -/
theorem C99_json_partial (host : Show.Host) (hh : ∀ b, 128 ≤ b.toNat → host.high b = .ok false) (real : Bytes → Json → Prop)
    (hr : ∀ c j, real c j → ∃ s, host.real c = .ok s ∧ Json.Spec.Value j s) (p : PTy) (hw : p.ty.WF) (hn : p.NamesOk) (o : Obj) (x : Val) (e : Bytes)
    (hx : p.ty.Rep o x e) (hs : p.Showable real x) : ∃ s j, p.show host o = .ok (some s) ∧ p.Describes real x j ∧ Document j s := by
  obtain ⟨s, j, h1, h2, h3⟩ := show_type hh hr p hw hn o x e hx hs
  exact ⟨s, j, h1, h2, [], s, [], ws_nil, h3, ws_nil, by simp⟩

/-- C99, for the types the compiler makes of a schema: the JSON text tells the value of the ASN.1 type, with the names of its components. -/
theorem C99_compiled_partial {lib : Lib} {tree : Tree} {env : Env} (hc : Compiled lib tree env) {mod : Module} {name : Name} {t : AType}
    (ha : Assigned tree mod name t) (host : Show.Host) (hh : ∀ b, 128 ≤ b.toNat → host.high b = .ok false) (real : Bytes → Json → Prop)
    (hr : ∀ c j, real c j → ∃ s, host.real c = .ok s ∧ Json.Spec.Value j s) :
    ∃ T, env.typeOf mod.name name = some T ∧ (∃ p : PTy, p.ty = T ∧ p.Of tree mod t) ∧
      ∀ p : PTy, p.ty = T → p.Of tree mod t → p.NamesOk → ∀ o x e, T.Rep o x e → p.Showable real x →
        ∃ s j, p.show host o = .ok (some s) ∧ Tells real tree mod t x j ∧ Document j s := by
  obtain ⟨T, hT, his, hw, _⟩ := implements hc ha
  refine ⟨T, hT, named_type T mod t his.1, ?_⟩
  rintro p rfl ho hn o x e hx hs
  obtain ⟨s, j, h1, h2, h3⟩ := C99_json_partial host hh real hr p hw hn o x e hx hs
  exact ⟨s, j, h1, tells_type p mod t his.1 ho x j h2, h3⟩

/-- C99, from the octets received to the text: whatever a peer encodes, decoding and printing it tells the value sent. -/
theorem C99_received_partial {lib : Lib} {tree : Tree} {env : Env} (hc : Compiled lib tree env) (hb : NoBareChoice tree) {mod : Module} {name : Name} {t : AType}
    (ha : Assigned tree mod name t) (host : Show.Host) (hh : ∀ b, 128 ≤ b.toNat → host.high b = .ok false) (real : Bytes → Json → Prop)
    (hr : ∀ c j, real c j → ∃ s, host.real c = .ok s ∧ Json.Spec.Value j s) :
    ∃ T, env.typeOf mod.name name = some T ∧ ∀ p : PTy, p.ty = T → p.Of tree mod t → p.NamesOk →
      ∀ x e, Encodes (definite readable) tree mod t x e → e.length < 2 ^ 64 → p.Showable real x → ∀ suffix, Sane suffix → ∀ o0, T.Holds o0 →
        ∃ o s j, T.decode o0 (e ++ suffix) = .ok (true, o) ∧ p.show host o = .ok (some s) ∧ Tells real tree mod t x j ∧ Document j s := by
  obtain ⟨T, hT, _, h1⟩ := C99_compiled_partial hc ha host hh real hr
  obtain ⟨T', hT', h2⟩ := C78_decodes_partial hc hb ha
  rw [hT] at hT'
  cases hT'
  refine ⟨T, hT, fun p hp ho hn x e he hl hs suffix hsu o0 h0 => ?_⟩
  obtain ⟨o, e', h3, h4⟩ := h2 x e he hl suffix hsu o0 h0
  obtain ⟨s, j, h5, h6, h7⟩ := h1 p hp ho hn o x e' h4 hs
  exact ⟨o, s, j, h3, h5, h6, h7⟩

/-- C99, safety: printing an object that holds a value never has undefined behaviour, provided the times in it are as long as a
decoder demands; it writes a text or throws. -/
theorem C99_safe (host : Show.Host) (hh : ∀ b, 128 ≤ b.toNat → (host.high b).Safe) (hr : ∀ c, (host.real c).Safe) (p : PTy) (hw : p.ty.WF) (hd : p.DefaultsOk)
    (o : Obj) (x : Val) (e : Bytes) (hx : p.ty.Rep o x e) (hv : p.ty.Valid x) : ∃ s, p.show host o = .ok s :=
  safe_type hh hr p hw hd o x e hx hv

theorem total_of_own {P : Leaf → Prop} (hP : ∀ k, ownText k → P k) : (∀ T : Ty, T.Leaves ownText → T.Leaves P) ∧ (∀ fs : Fields, fs.Leaves ownText → fs.Leaves P) ∧
    (∀ as : Alts, as.Leaves ownText → as.Leaves P) := by
  have key : ∀ T : Ty, T.Leaves ownText → T.Leaves P := fun T => Ty.rec (motive_1 := fun T => T.Leaves ownText → T.Leaves P)
    (motive_2 := fun fs => fs.Leaves ownText → fs.Leaves P) (motive_3 := fun as => as.Leaves ownText → as.Leaves P)
    (fun k id h => hP k h) (fun id t ih h => ih h) (fun id fs ih h => ih h) (fun id ext fs ih h => ih h) (fun id as ih h => ih h)
    (fun _ => trivial) (fun k l t rest iht ihr h => ⟨iht h.1, ihr h.2⟩) (fun _ => trivial) (fun l t rest iht ihr h => ⟨iht h.1, ihr h.2⟩) T
  refine ⟨key, fun fs => ?_, fun as => ?_⟩
  · exact fun h => key (.seq (.single ⟨.universal, 16⟩) fs) h
  · exact fun h => key (.choice (.untagged []) as) h

/-- C99, equality: objects the library calls equal are printed the same, whatever form they were received in.  REALs and times excluded: their text
comes from outside. -/
theorem C99_equal_objects (host : Show.Host) (p : PTy) (hw : p.ty.WF) (hl : p.ty.Leaves ownText) (a b : Obj) (ha : p.ty.Holds a) (hb : p.ty.Holds b)
    (h : p.ty.equal a b = .ok true) : p.show host a = p.show host b := by
  obtain ⟨x, e, ha⟩ := ha
  obtain ⟨y, f, hb⟩ := hb
  have hl' : p.ty.Leaves leafCmpTotal := (total_of_own (fun k h => by cases k <;> first | trivial | exact False.elim h)).1 p.ty hl
  obtain ⟨r, h1, h2⟩ := Ty.eqLaw p.ty hw hl' ha hb
  have h : p.ty.codec.eq a b = .ok true := h
  rw [h1] at h
  cases h
  exact equal_type host p hw hl a b x y e f ha hb (h2.1 rfl)

/-- C99, telling values apart: if two objects are printed the same, the library calls them equal.  Partial: not for types with CHOICE, OPTIONAL NULL
(`C99_violated_choice`, `C99_violated_null`), OBJECT IDENTIFIER, REAL or times, nor for text that is not printable (`C99_violated_binary`). -/
theorem C99_tells_apart_partial (host : Show.Host) (hh : ∀ b, 128 ≤ b.toNat → host.high b = .ok false) (p : PTy) (hw : p.ty.WF) (hn : p.NamesOk)
    (ht : p.Telling) (hl : p.ty.Leaves ownText) (a b : Obj) (x y : Val) (e f : Bytes) (ha : p.ty.Rep a x e) (hb : p.ty.Rep b y f)
    (hsx : p.Showable (fun _ _ => False) x) (hsy : p.Showable (fun _ _ => False) y) (tx : p.TextOk x) (ty : p.TextOk y)
    (h : p.show host a = p.show host b) : p.ty.equal a b = .ok true := by
  obtain ⟨s, j, h1, h2, h3⟩ := C99_json_partial host hh (fun _ _ => False) (fun _ _ h => h.elim) p hw hn a x e ha hsx
  obtain ⟨s', j', h1', h2', h3'⟩ := C99_json_partial host hh (fun _ _ => False) (fun _ _ h => h.elim) p hw hn b y f hb hsy
  rw [h1, h1'] at h
  cases h
  cases C89_unique j j' _ h3 h3'
  have hl' : p.ty.Leaves leafCmpTotal := (total_of_own (fun k h => by cases k <;> first | trivial | exact False.elim h)).1 p.ty hl
  obtain ⟨r, h4, h5⟩ := Ty.eqLaw p.ty hw hl' ha hb
  show p.ty.codec.eq a b = .ok true
  rw [h4, h5.2 (tell_type p hw ht hn x y j h2 h2' tx ty)]

/-! ## An example -/

theorem holds_text (id : Ident) (e : Bytes) {v : BerView} (h1 : BerView.parse e = .ok v) (h2 : v.hdr + v.len = e.length) (h3 : e.length < 2 ^ 64)
    (h4 : Matches v id .primitive v) : contRep id (.cont ⟨e, v.len⟩) (.content (e.drop (e.length - v.len))) e :=
  ⟨v, v, h1, h2, h3, h4, by omega, rfl, rfl⟩

/-- ISO C leaves `isprint` of other octets open; this is glibc's answer.  No times, no REALs. -/
def plainHost : Show.Host := ⟨⟨fun _ => .ok false, fun _ => none⟩, fun _ => .ok []⟩

/-- `Item` of the schema `shopTree`, with names. -/
def shownItem : PTy := .seq (univ 16) <|
  .cons "id" .mandatory [] (.leaf .int [] (univ 2)) <|
  .cons "label" .optional [⟨.contextSpecific, 0⟩] (.leaf .str [] (ctx 0)) <|
  .cons "count" (.default (.raw [0x81, 1, 1, 0, 0, 0, 0, 0, 0, 0])) [⟨.contextSpecific, 1⟩] (.leaf .int [] (ctx 1)) <|
  .cons "kind" .optional [⟨.universal, 10⟩] (.leaf .enum [(0, "food"), (1, "toy")] (univ 10)) .nil

/-- `{ id 7, label "cat", kind toy }` with `count` left out. -/
def shownObject : Obj := .struct [.raw (tagged (univ 2) .primitive [7] ++ [0, 0, 0, 0, 0, 0, 0]), .some (.cont ⟨[0x80, 3, 0x63, 0x61, 0x74], 3⟩), .none,
  .some (.raw (tagged (univ 10) .primitive [1] ++ [0, 0, 0, 0, 0, 0, 0]))]

def shownValue : Val := .struct [.content [7], .present (.content [0x63, 0x61, 0x74]), .absent, .present (.content [1])]

theorem shownItem_ty : shownItem.ty = demoItem := rfl

theorem shownItem_of : shownItem.Of shopTree shopModule (.defined none "Item" []) := by
  refine ⟨shopModule, _, _, .reference rfl (.here rfl), ?_⟩
  exact ⟨_, _, rfl, rfl, ⟨shopModule, .integer, .reference rfl (.here rfl)⟩, _, _, rfl, rfl, ⟨shopModule, _, .prefixed (.here rfl)⟩,
    _, _, rfl, rfl, ⟨shopModule, _, .prefixed (.here rfl)⟩, _, _, rfl, rfl, ⟨shopModule, _, .here rfl⟩, rfl⟩

/-- The text, and the object holds the value. -/
theorem shown_item : shownItem.show plainHost shownObject = .ok (some (lit "{\"id\" : 7, \"label\" : \"cat\", \"count\" : 1, \"kind\" : \"toy\"}")) := by
  decide +kernel

theorem shown_holds : ∃ e, shownItem.ty.Rep shownObject shownValue e :=
  ⟨_, _, _, _, rfl, rfl, rfl, _, _, _, _, _, _, rfl, rfl, rfl, ⟨[7], [0, 0, 0, 0, 0, 0, 0], rfl, by decide, rfl, rfl, rfl⟩,
    _, _, _, _, _, _, rfl, rfl, rfl, .inr ⟨_, _, rfl, rfl, holds_text (ctx 0) [0x80, 3, 0x63, 0x61, 0x74] rfl rfl (by decide) ⟨rfl, rfl, rfl, rfl⟩⟩,
    _, _, _, _, _, _, rfl, rfl, rfl, .inl ⟨rfl, rfl, rfl⟩,
    _, _, _, _, _, _, rfl, rfl, rfl, .inr ⟨_, _, rfl, rfl, ⟨[1], [0, 0, 0, 0, 0, 0, 0], rfl, by decide, rfl, rfl, rfl⟩⟩, rfl, rfl, rfl⟩

theorem shown_wf : shownItem.ty.WF :=
  ⟨⟨by decide, by decide⟩, ⟨by decide, by decide⟩, trivial, ⟨by decide, by decide⟩, trivial, ⟨by decide, by decide⟩,
    ⟨_, _, [1], [0, 0, 0, 0, 0, 0, 0], rfl, by decide, rfl, rfl, rfl⟩, ⟨by decide, by decide⟩, trivial, trivial⟩

instance (n : Name) : Decidable (NameOk n) := by unfold NameOk; infer_instance

theorem shown_names : shownItem.NamesOk :=
  ⟨by decide +kernel, ⟨by simp, by simp, by simp⟩, by decide +kernel, ⟨by simp, by simp, by simp⟩, by decide +kernel, ⟨by simp, by simp, by simp⟩,
    by decide +kernel, ⟨by decide +kernel, by decide +kernel, by decide +kernel⟩, trivial⟩

theorem shown_showable : shownItem.Showable (fun _ _ => False) shownValue :=
  ⟨trivial, (fun _ => by decide : PlainText [0x63, 0x61, 0x74]), ⟨_, _, ⟨[1], [0, 0, 0, 0, 0, 0, 0], rfl, by decide, rfl, rfl, rfl⟩, trivial⟩,
    ⟨"toy", by decide +kernel⟩, trivial⟩

example : ∃ s j, shownItem.show plainHost shownObject = .ok (some s) ∧ shownItem.Describes (fun _ _ => False) shownValue j ∧ Document j s := by
  obtain ⟨e, he⟩ := shown_holds
  exact C99_json_partial plainHost (fun _ _ => rfl) _ (fun _ _ h => h.elim) shownItem shown_wf shown_names _ _ e he shown_showable

/-- The restrictions of `C99_tells_apart_partial` are met as well. -/
example : shownItem.Telling ∧ shownItem.ty.Leaves ownText ∧ shownItem.TextOk shownValue ∧ shownItem.DefaultsOk ∧ shownItem.ty.Valid shownValue := by
  refine ⟨⟨trivial, trivial, trivial, trivial, trivial, trivial, trivial, trivial, trivial⟩, ⟨trivial, trivial, trivial, trivial, trivial⟩, ?_, ?_, ?_⟩
  · exact ⟨trivial, (by decide : Printable [0x63, 0x61, 0x74]), ⟨_, _, ⟨[1], [0, 0, 0, 0, 0, 0, 0], rfl, by decide, rfl, rfl, rfl⟩, trivial⟩, trivial, trivial⟩
  · exact ⟨trivial, trivial, trivial, trivial, ⟨_, _, ⟨[1], [0, 0, 0, 0, 0, 0, 0], rfl, by decide, rfl, rfl, rfl⟩, trivial⟩, trivial, trivial, trivial, trivial⟩
  · exact ⟨trivial, trivial, trivial, trivial, trivial⟩

/-! ## Where it fails -/

/-- The text for a CHOICE does not say which alternative it holds: two values of `CHOICE { a [0] INTEGER, b [1] INTEGER }` that are different for the
library are printed the same. -/
theorem C99_violated_choice : ∃ (p : PTy) (a b : Obj), p.ty.Holds a ∧ p.ty.Holds b ∧ p.ty.equal a b = .ok false ∧ p.show plainHost a = p.show plainHost b := by
  refine ⟨.choice (.untagged [⟨.contextSpecific, 0⟩, ⟨.contextSpecific, 1⟩]) (.cons [⟨.contextSpecific, 0⟩] (.leaf .int [] (ctx 0))
    (.cons [⟨.contextSpecific, 1⟩] (.leaf .int [] (ctx 1)) .nil)), .alt 0 (.raw [0x80, 1, 5, 0, 0, 0, 0, 0, 0, 0]),
    .alt 1 (.raw [0x81, 1, 5, 0, 0, 0, 0, 0, 0, 0]), ?_, ?_, by decide +kernel, by decide +kernel⟩
  · exact ⟨_, _, 0, _, _, _, rfl, rfl, ⟨[5], [0, 0, 0, 0, 0, 0, 0], rfl, by decide, rfl, rfl, rfl⟩, rfl⟩
  · exact ⟨_, _, 1, _, _, _, rfl, rfl, ⟨[5], [0, 0, 0, 0, 0, 0, 0], rfl, by decide, rfl, rfl, rfl⟩, rfl⟩

/-- Neither does it say whether an OPTIONAL NULL is there. -/
theorem C99_violated_null : ∃ (p : PTy) (a b : Obj), p.ty.Holds a ∧ p.ty.Holds b ∧ p.ty.equal a b = .ok false ∧ p.show plainHost a = p.show plainHost b := by
  refine ⟨.seq (univ 16) (.cons "n" .optional [⟨.universal, 5⟩] (.leaf .null [] (univ 5)) .nil), .struct [.none], .struct [.some (.raw [5, 0])], ?_, ?_,
    by decide +kernel, by decide +kernel⟩
  · exact ⟨_, _, _, _, _, rfl, rfl, rfl, _, _, _, _, _, _, rfl, rfl, rfl, .inl ⟨rfl, rfl, rfl⟩, rfl, rfl, rfl⟩
  · exact ⟨_, _, _, _, _, rfl, rfl, rfl, _, _, _, _, _, _, rfl, rfl, rfl, .inr ⟨_, _, rfl, rfl, rfl, rfl, rfl⟩, rfl, rfl, rfl⟩

/-- All text that is not printable looks the same. -/
theorem C99_violated_binary : ∃ (p : PTy) (a b : Obj), p.ty.Holds a ∧ p.ty.Holds b ∧ p.ty.equal a b = .ok false ∧ p.show plainHost a = p.show plainHost b := by
  refine ⟨.leaf .str [] (univ 4), .cont ⟨[4, 1, 0], 1⟩, .cont ⟨[4, 1, 1], 1⟩, ?_, ?_, by decide +kernel, by decide +kernel⟩
  · exact ⟨_, _, holds_text (univ 4) [4, 1, 0] rfl rfl (by decide) ⟨rfl, rfl, rfl, rfl⟩⟩
  · exact ⟨_, _, holds_text (univ 4) [4, 1, 1] rfl rfl (by decide) ⟨rfl, rfl, rfl, rfl⟩⟩

/-- Quotation marks in text are not escaped: not JSON. -/
theorem C99_violated_quotes : ∃ (p : PTy) (o : Obj) (s : Bytes), p.ty.Holds o ∧ p.show plainHost o = .ok (some s) ∧ ∀ j, ¬ Document j s := by
  refine ⟨.leaf .str [] (univ 19), .cont ⟨[19, 1, 0x22], 1⟩, lit "\"\"\"", ?_, by decide +kernel, not_json (by decide +kernel)⟩
  exact ⟨_, _, holds_text (univ 19) [19, 1, 0x22] rfl rfl (by decide) ⟨rfl, rfl, rfl, rfl⟩⟩

/-- An ENUMERATED with a number that is not in its list, as a decoder lets through, is called `Invalid state!`, and so are all others like it. -/
theorem C99_violated_enumerated : ∃ (p : PTy) (a b : Obj), p.ty.Holds a ∧ p.ty.Holds b ∧ p.ty.equal a b = .ok false ∧
    p.show plainHost a = .ok (some (lit "\"Invalid state!\"")) ∧ p.show plainHost b = .ok (some (lit "\"Invalid state!\"")) := by
  refine ⟨.leaf .enum [(0, "food"), (1, "toy")] (univ 10), .raw [10, 1, 2, 0, 0, 0, 0, 0, 0, 0], .raw [10, 1, 3, 0, 0, 0, 0, 0, 0, 0], ?_, ?_,
    by decide +kernel, by decide +kernel, by decide +kernel⟩
  · exact ⟨_, _, [2], [0, 0, 0, 0, 0, 0, 0], rfl, by decide, rfl, rfl, rfl⟩
  · exact ⟨_, _, [3], [0, 0, 0, 0, 0, 0, 0], rfl, by decide, rfl, rfl, rfl⟩

/-- A time that is understood is printed without quotation marks: not JSON. -/
theorem C99_violated_time : ∃ (host : Show.Host) (p : PTy) (o : Obj) (s : Bytes), p.ty.Holds o ∧ p.show host o = .ok (some s) ∧ ∀ j, ¬ Document j s := by
  refine ⟨⟨timeHost, fun _ => .ok []⟩, .leaf (.time fun _ _ => .ok true) [] (univ 24),
    .cont ⟨[0x18, 15, 0x32, 0x30, 0x32, 0x31, 0x30, 0x38, 0x31, 0x35, 0x31, 0x33, 0x30, 0x35, 0x30, 0x30, 0x5A], 15⟩, lit "2021-08-15T13:05:00+00:00", ?_,
    by decide +kernel, not_json (by decide +kernel)⟩
  exact ⟨_, _, holds_text (univ 24) [0x18, 15, 0x32, 0x30, 0x32, 0x31, 0x30, 0x38, 0x31, 0x35, 0x31, 0x33, 0x30, 0x35, 0x30, 0x30, 0x5A] rfl rfl (by decide) ⟨rfl, rfl, rfl, rfl⟩⟩

/-- Printing throws if the text of a time, which a decoder has accepted, is not understood: here ten letters. -/
theorem C99_violated_throws : ∃ (p : PTy) (o : Obj), p.ty.new.Safe ∧ (∃ o0, p.ty.new = .ok o0 ∧
    p.ty.decode o0 [0x18, 10, 0x41, 0x41, 0x41, 0x41, 0x41, 0x41, 0x41, 0x41, 0x41, 0x5A] = .ok (true, o)) ∧ p.show plainHost o = .ok none :=
  ⟨.leaf (.time fun _ _ => .ok true) [] (univ 24), .cont ⟨[0x18, 10, 0x41, 0x41, 0x41, 0x41, 0x41, 0x41, 0x41, 0x41, 0x41, 0x5A], 10⟩, ⟨_, rfl⟩, ⟨_, rfl, rfl⟩,
    by decide +kernel⟩

end FastBer.Props
