import Verif.Proofs.SchemaApi
import Verif.Props.Oid
/-! # Properties C31-C48: generated types -/
namespace FastBer.Props
open FastBer Spec
set_option maxRecDepth 100000

/-! ## A schema for the examples

```
Sample ::= SEQUENCE {
  n INTEGER,
  s [0] EXPLICIT OCTET STRING OPTIONAL,
  b BOOLEAN DEFAULT FALSE,
  l [1] IMPLICIT SEQUENCE OF INTEGER,
  u SET { z NULL OPTIONAL, e ENUMERATED {..} },
  c [2] CHOICE { x INTEGER, y [5] OCTET STRING },      -- single wrapper
  d CHOICE { p [7] BOOLEAN, q [8] NULL } OPTIONAL }
``` -/

def univ (n : Int) : Ident := .single ⟨.universal, n⟩
def ctx (n : Int) : Ident := .single ⟨.contextSpecific, n⟩

def sampleSet : Fields :=
  .cons .optional [⟨.universal, 5⟩] (.leaf .null (univ 5)) <|
  .cons .mandatory [⟨.universal, 10⟩] (.leaf .enum (univ 10)) .nil

def sampleFields : Fields :=
  .cons .mandatory [⟨.universal, 2⟩] (.leaf .int (univ 2)) <|
  .cons .optional [⟨.contextSpecific, 0⟩] (.leaf .str (.double ⟨.contextSpecific, 0⟩ ⟨.universal, 4⟩)) <|
  .cons (.default (.raw [1, 1, 0])) [⟨.universal, 1⟩] (.leaf .bool (univ 1)) <|
  .cons .mandatory [⟨.contextSpecific, 1⟩] (.seqOf (ctx 1) (.leaf .int (univ 2))) <|
  .cons .mandatory [⟨.universal, 17⟩] (.set (univ 17) true sampleSet) <|
  .cons .mandatory [⟨.contextSpecific, 2⟩] (.choice (.tagged (ctx 2))
    (.cons [⟨.universal, 2⟩] (.leaf .int (univ 2)) <| .cons [⟨.contextSpecific, 5⟩] (.leaf .str (ctx 5)) .nil)) <|
  .cons .optional [⟨.contextSpecific, 7⟩, ⟨.contextSpecific, 8⟩]
    (.choice (.untagged [⟨.contextSpecific, 7⟩, ⟨.contextSpecific, 8⟩])
      (.cons [⟨.contextSpecific, 7⟩] (.leaf .bool (ctx 7)) <| .cons [⟨.contextSpecific, 8⟩] (.leaf .null (ctx 8)) .nil)) .nil

def sample : Ty := .seq (univ 16) sampleFields

/-- n = -129, s = "ab", b absent, l = [1, 300], u = {z absent, e = 3}, c = y:"c", d = p:TRUE -/
def sampleObj : Obj := .struct [
  .raw [2, 2, 0xFF, 0x7F, 9, 9, 9, 9, 9, 9],
  .some (.cont ⟨[0xA0, 4, 4, 2, 0x61, 0x62], 2⟩),
  .none,
  .list [.raw [2, 1, 1, 0, 0, 0, 0, 0, 0, 0], .raw [2, 2, 1, 44, 0, 0, 0, 0, 0, 0]],
  .struct [.none, .raw [10, 1, 3, 0, 0, 0, 0, 0, 0, 0]],
  .alt 1 (.cont ⟨[0x85, 1, 0x63], 1⟩),
  .some (.alt 0 (.raw [0x87, 1, 0xFF]))]

def sampleVal : Val := .struct [
  .content [0xFF, 0x7F], .present (.content [0x61, 0x62]), .absent,
  .list [.content [1], .content [1, 44]],
  .struct [.absent, .content [3]], .alt 1 (.content [0x63]), .present (.alt 0 (.content [0xFF]))]

def sampleBytes : Bytes := [0x30, 32,
  2, 2, 0xFF, 0x7F, 0xA0, 4, 4, 2, 0x61, 0x62, 0xA1, 7, 2, 1, 1, 2, 2, 1, 44, 0x31, 3, 10, 1, 3,
  0xA2, 3, 0x85, 1, 0x63, 0x87, 1, 0xFF]

theorem sample_wf : sample.WF := by
  have hd : (Ty.leaf .bool (univ 1)).Holds (.raw [1, 1, 0]) :=
    ⟨.content [0], [1, 1, 0], 0, rfl, by decide +kernel, rfl⟩
  simp [sample, sampleFields, sampleSet, Ty.WF, Fields.WF, Alts.WF, univ, ctx, identOk, idOk, Alts.outer, Ty.outer,
    Ident.outer]
  exact hd

theorem sample_unamb : sample.Unamb := by
  simp [sample, sampleFields, sampleSet, Ty.Unamb, Fields.SeqUnamb, Fields.AllUnamb, Fields.SetUnamb, Alts.Unamb,
    Alts.AllUnamb, Fields.firsts, Fields.labels, Alts.labels, Ty.outer, Alts.outer, univ, ctx, Ident.outer]

theorem sample_guarded : sample.Guarded := by
  simp [sample, sampleFields, sampleSet, Ty.Guarded, Fields.SeqGuarded, Fields.SetGuarded, Alts.Guarded,
    Ty.isUntaggedChoice]

theorem sample_leaves (P : Leaf → Prop) (h : P .int ∧ P .enum ∧ P .bool ∧ P .null ∧ P .str) : sample.Leaves P := by
  obtain ⟨h1, h2, h3, h4, h5⟩ := h
  simp [sample, sampleFields, sampleSet, Ty.Leaves, Fields.Leaves, Alts.Leaves, *]

theorem sample_valid : sample.Valid sampleVal := by
  simp [sample, sampleFields, sampleSet, sampleVal, Ty.Valid, Fields.Valid, Alts.Valid, compValid]

theorem sample_rep : sample.Rep sampleObj sampleVal sampleBytes := by
  refine ⟨_, _, [[2, 2, 0xFF, 0x7F], [0xA0, 4, 4, 2, 0x61, 0x62], [], [0xA1, 7, 2, 1, 1, 2, 2, 1, 44],
    [0x31, 3, 10, 1, 3], [0xA2, 3, 0x85, 1, 0x63], [0x87, 1, 0xFF]], rfl, rfl, by decide +kernel, ?_⟩
  refine ⟨_, _, _, _, _, _, rfl, rfl, rfl, ⟨[0xFF, 0x7F], [9, 9, 9, 9, 9, 9], rfl, by decide, by decide, by decide +kernel, rfl⟩, ?_⟩
  refine ⟨_, _, _, _, _, _, rfl, rfl, rfl, .inr ⟨_, _, rfl, rfl, ?_⟩, ?_⟩
  · exact ⟨_, _, rfl, by decide, by decide, ⟨rfl, rfl, rfl, _, rfl, rfl, rfl, rfl, rfl⟩, by decide, rfl, rfl⟩
  refine ⟨_, _, _, _, _, _, rfl, rfl, rfl, .inl ⟨rfl, rfl, rfl⟩, ?_⟩
  refine ⟨_, _, _, _, _, _, rfl, rfl, rfl, ?_, ?_⟩
  · refine ⟨_, _, [[2, 1, 1], [2, 2, 1, 44]], rfl, rfl, by decide +kernel, ?_, ?_, trivial⟩
    · exact ⟨[1], [0, 0, 0, 0, 0, 0, 0], rfl, by decide, by decide, by decide +kernel, rfl⟩
    · exact ⟨[1, 44], [0, 0, 0, 0, 0, 0], rfl, by decide, by decide, by decide +kernel, rfl⟩
  refine ⟨_, _, _, _, _, _, rfl, rfl, rfl, ?_, ?_⟩
  · refine ⟨_, _, [[], [10, 1, 3]], rfl, rfl, by decide +kernel, ?_⟩
    refine ⟨_, _, _, _, _, _, rfl, rfl, rfl, .inl ⟨rfl, rfl, rfl⟩, ?_⟩
    refine ⟨_, _, _, _, _, _, rfl, rfl, rfl, ?_, rfl, rfl, rfl⟩
    exact ⟨[3], [0, 0, 0, 0, 0, 0, 0], rfl, by decide, by decide, by decide +kernel, rfl⟩
  refine ⟨_, _, _, _, _, _, rfl, rfl, rfl, ?_, ?_⟩
  · refine ⟨1, _, _, [0x85, 1, 0x63], rfl, rfl, ?_, by decide +kernel⟩
    exact ⟨_, _, rfl, by decide, by decide, ⟨rfl, rfl, rfl, rfl⟩, by decide, rfl, rfl⟩
  refine ⟨_, _, _, _, _, _, rfl, rfl, rfl, .inr ⟨_, _, rfl, rfl, ?_⟩, rfl, rfl, rfl⟩
  exact ⟨0, _, _, [0x87, 1, 0xFF], rfl, rfl, ⟨0xFF, rfl, by decide +kernel, rfl⟩, rfl⟩

theorem sample_fits : sample.Fits sampleObj := ⟨_, _, sample_rep, by decide⟩

theorem sample_size : sample.encodedLength sampleObj = 34 := by decide +kernel

/-! ## C31, C32, C36: encoding -/

/-- C31: for every type and every value it holds, a successful `encode` into any buffer reports exactly
`encoded_length(value)` bytes. -/
theorem C31_encode_length (t : Ty) (hw : t.WF) {o : Obj} (ho : t.Fits o) (buf : Bytes) {r : EncodeResult} {buf' : Bytes}
    (h : t.encode o buf = .ok (r, buf')) (hs : r.success = true) : r.length = t.encodedLength o := by
  obtain ⟨x, e, hr, hl⟩ := ho
  have hsz : t.encodedLength o = e.length := (t.encLaws hw).size hr hl
  obtain ⟨h1, h2⟩ := (t.encLaws hw).writes hr hl
  by_cases hb : e.length ≤ buf.length
  · have := h1 buf hb
    rw [← Ty.encode, h] at this
    simp only [Exec.ok.injEq, Prod.mk.injEq] at this
    rw [this.1, hsz]
  · obtain ⟨b, h2, _⟩ := h2 buf (by omega)
    rw [← Ty.encode, h] at h2
    simp only [Exec.ok.injEq, Prod.mk.injEq] at h2
    rw [h2.1] at hs; cases hs

example : sample.encode sampleObj (List.replicate 36 7) = .ok (⟨true, 34⟩, sampleBytes ++ [7, 7]) := by
  have := ((sample.encLaws sample_wf).writes sample_rep (by decide)).1 (List.replicate 36 7) (by decide)
  exact this

/-- C32: `encode` succeeds exactly when the buffer has at least `encoded_length(value)` bytes; it never
runs into undefined behaviour or writes outside the buffer (the new content has the same size), and on
success the bytes from `encoded_length(value)` on keep their old values. -/
theorem C32_encode_exact (t : Ty) (hw : t.WF) {o : Obj} (ho : t.Fits o) (buf : Bytes) :
    ∃ r buf', t.encode o buf = .ok (r, buf') ∧ (r.success = true ↔ t.encodedLength o ≤ buf.length) ∧
      buf'.length = buf.length ∧
      (r.success = true → buf'.drop (t.encodedLength o) = buf.drop (t.encodedLength o)) := by
  obtain ⟨x, e, hr, hl⟩ := ho
  have hsz : t.encodedLength o = e.length := (t.encLaws hw).size hr hl
  obtain ⟨h1, h2⟩ := (t.encLaws hw).writes hr hl
  rw [hsz]
  by_cases hb : e.length ≤ buf.length
  · refine ⟨_, _, h1 buf hb, ⟨fun _ => hb, fun _ => rfl⟩, by simp; omega, fun _ => ?_⟩
    rw [List.drop_left]
  · obtain ⟨b, h3, h4⟩ := h2 buf (by omega)
    exact ⟨_, _, h3, ⟨(fun h => nomatch h), (fun h => (hb h).elim)⟩, h4, (fun h => nomatch h)⟩

example : ∃ r buf', sample.encode sampleObj (List.replicate 33 7) = .ok (r, buf') ∧ r.success = false := by
  obtain ⟨r, b, h1, h2, h3⟩ := C32_encode_exact sample sample_wf sample_fits (List.replicate 33 7)
  refine ⟨r, b, h1, ?_⟩
  rw [sample_size] at h2
  cases hr : r.success
  · rfl
  · exact absurd (h2.mp hr) (by decide)

/-- C36: the bytes produced are a function of the value alone: whatever the sizes and previous contents of
two buffers, two successful encodings of objects holding the same value write the same bytes. -/
theorem C36_deterministic (t : Ty) (hw : t.WF) {o : Obj} (ho : t.Fits o) (buf1 buf2 : Bytes)
    {r1 r2 : EncodeResult} {b1 b2 : Bytes} (h1 : t.encode o buf1 = .ok (r1, b1)) (h2 : t.encode o buf2 = .ok (r2, b2))
    (s1 : r1.success = true) (s2 : r2.success = true) :
    r1.length = r2.length ∧ b1.take r1.length = b2.take r2.length := by
  obtain ⟨x, e, hr, hl⟩ := ho
  obtain ⟨g1, g2⟩ := (t.encLaws hw).writes hr hl
  have key : ∀ buf (r : EncodeResult) b, t.encode o buf = .ok (r, b) → r.success = true → r.length = e.length ∧ b.take r.length = e := by
    intro buf r b h hs
    by_cases hb : e.length ≤ buf.length
    · have := g1 buf hb
      rw [← Ty.encode, h] at this
      simp only [Exec.ok.injEq, Prod.mk.injEq] at this
      rw [this.1, this.2]; exact ⟨rfl, List.take_left⟩
    · obtain ⟨b', h', _⟩ := g2 buf (by omega)
      rw [← Ty.encode, h] at h'
      simp only [Exec.ok.injEq, Prod.mk.injEq] at h'
      rw [h'.1] at hs; cases hs
  obtain ⟨a1, a2⟩ := key _ _ _ h1 s1
  obtain ⟨a3, a4⟩ := key _ _ _ h2 s2
  exact ⟨by rw [a1, a3], by rw [a2, a4]⟩

example : ∃ b1 b2, sample.encode sampleObj (List.replicate 34 1) = .ok (⟨true, 34⟩, b1) ∧
    sample.encode sampleObj (List.replicate 50 0xFF) = .ok (⟨true, 34⟩, b2) :=
  ⟨_, _, ((sample.encLaws sample_wf).writes sample_rep (by decide)).1 (List.replicate 34 1) (by decide),
    ((sample.encLaws sample_wf).writes sample_rep (by decide)).1 (List.replicate 50 0xFF) (by decide)⟩

/-! ## C33, C34, C35: what the bytes are -/

/-- Encoding a value into a large enough buffer: the bytes written. -/
theorem encode_writes (t : Ty) (hw : t.WF) {o : Obj} {x : Val} {e : Bytes} (hr : t.Rep o x e) (hl : e.length < 2 ^ 64)
    {buf : Bytes} {r : EncodeResult} {buf' : Bytes} (h : t.encode o buf = .ok (r, buf')) (hs : r.success = true) :
    r.length = e.length ∧ buf'.take r.length = e := by
  obtain ⟨g1, g2⟩ := (t.encLaws hw).writes hr hl
  by_cases hb : e.length ≤ buf.length
  · have := g1 buf hb
    rw [← Ty.encode, h] at this
    simp only [Exec.ok.injEq, Prod.mk.injEq] at this
    rw [this.1, this.2]; exact ⟨rfl, List.take_left⟩
  · obtain ⟨b', h', _⟩ := g2 buf (by omega)
    rw [← Ty.encode, h] at h'
    simp only [Exec.ok.injEq, Prod.mk.injEq] at h'
    rw [h'.1] at hs; cases hs

/-- C33 (`_partial`): for every type whose CHOICEs have alternatives with distinct tag *numbers* (X.680 only
asks for distinct identifiers, see `C33_violated`) and whose times are well-formed, decoding the bytes
written by `encode`, followed by anything, into an object in any previous state succeeds; the new object
holds the same abstract value, has the same encoding, and compares equal to the original exactly if the original compares equal to itself
(`C33_self_equal`; not so if it contains a NaN, see C83). -/
theorem C33_round_trip_partial (t : Ty) (hw : t.WF) (hu : t.Unamb) {o : Obj} {x : Val} {e : Bytes} (ho : t.Rep o x e) (hv : t.Valid x)
    (hl : e.length < 2 ^ 64) (buf : Bytes) {r : EncodeResult} {buf' : Bytes}
    (h : t.encode o buf = .ok (r, buf')) (hs : r.success = true) {o0 : Obj} (h0 : t.Holds o0) (suffix : Bytes) :
    ∃ o', t.decode o0 (buf'.take r.length ++ suffix) = .ok (true, o') ∧ t.Rep o' x e ∧
      (t.equal o' o = .ok true ↔ t.equal o o = .ok true) := by
  obtain ⟨_, hb⟩ := encode_writes t hw ho hl h hs
  rw [hb]
  obtain ⟨v, i, hp, hval, hlen, hi, hid⟩ := (t.encLaws hw).elem ho hl
  have hpa := parse_append (s := suffix) hp hval
  obtain ⟨o', hd, hr'⟩ := t.roundLaw hw hu ho hv hl h0 hpa
  refine ⟨o', by simp only [Ty.decode, hpa, Exec.ok_bind, hd], hr', ?_⟩
  exact (t.eqIff hw hr' ho).trans (t.eqIff hw ho ho).symm

/-- C33: every object compares equal to itself, if REALs and times in it do. -/
theorem C33_self_equal (t : Ty) (hw : t.WF) (hrf : t.Leaves leafCmpRefl) {o : Obj} (ho : t.Holds o) : t.equal o o = .ok true := by
  obtain ⟨x, e, ho⟩ := ho
  exact (t.eqIff hw ho ho).2 (t.same_refl hw hrf _ _ _ ho)

/-- Did a decode succeed? -/
def succeeded : Exec (Bool × Obj) → Bool
  | .ok (b, _) => b
  | _ => false

example : succeeded <| sample.decode (.struct [.raw [2, 1, 0, 0, 0, 0, 0, 0, 0, 0], .none, .none, .list [],
      .struct [.none, .raw [10, 1, 0, 0, 0, 0, 0, 0, 0, 0]], .alt 0 (.raw [2, 1, 0, 0, 0, 0, 0, 0, 0, 0]), .none])
      (sampleBytes ++ [1, 2, 3]) := by decide +kernel

/-- CHOICE { INTEGER, [2] BOOLEAN }: legal ASN.1, the identifiers differ in class. -/
def clash : Ty := .choice (.untagged [⟨.universal, 2⟩, ⟨.contextSpecific, 2⟩])
  (.cons [⟨.universal, 2⟩] (.leaf .int (univ 2)) <| .cons [⟨.contextSpecific, 2⟩] (.leaf .bool (ctx 2)) .nil)

/-- C33 is violated for legal ASN.1 types: CHOICE { i INTEGER, b [2] BOOLEAN } cannot decode what it encodes
for `b`, because the decoder compares tag numbers without the class. -/
theorem C33_violated : clash.WF ∧ clash.Proper ∧ clash.Rep (.alt 1 (.raw [0x82, 1, 0xFF])) (.alt 1 (.content [0xFF])) [0x82, 1, 0xFF] ∧
    clash.encode (.alt 1 (.raw [0x82, 1, 0xFF])) [0, 0, 0] = .ok (⟨true, 3⟩, [0x82, 1, 0xFF]) ∧
    ∃ o', clash.decode (.alt 1 (.raw [0x82, 1, 0xFF])) [0x82, 1, 0xFF] = .ok (false, o') := by
  refine ⟨?_, ?_, ?_, rfl, _, rfl⟩
  · simp [clash, Ty.WF, Alts.WF, identOk, idOk, univ, ctx, Alts.outer, Ty.outer, Ident.outer]
  · simp [clash, Ty.Proper, Alts.Distinct, Alts.AllProper, Alts.labels, univ, ctx, Ty.outer, Ident.outer]
  · exact ⟨1, _, _, _, rfl, rfl, ⟨0xFF, rfl, by decide +kernel, rfl⟩, rfl⟩

/-- C34: the bytes written parse, on their own, as exactly one BER element, whose identifier is (one of) the
type's and whose construction is the type's. -/
theorem C34_single_element (t : Ty) (hw : t.WF) {o : Obj} (ho : t.Fits o) (buf : Bytes) {r : EncodeResult} {buf' : Bytes}
    (h : t.encode o buf = .ok (r, buf')) (hs : r.success = true) :
    ∃ v i, BerView.parse (buf'.take r.length) = .ok v ∧ v.valid = true ∧ v.berLength = t.encodedLength o ∧
      v.identifier = .ok i ∧ i ∈ t.outer ∧
      (∀ id k, t.header = some (id, k) → i = id.outer ∧ ∃ w, Matches v id k w) := by
  obtain ⟨x, e, hr, hl⟩ := ho
  have hsz : t.encodedLength o = e.length := (t.encLaws hw).size hr hl
  obtain ⟨_, hb⟩ := encode_writes t hw hr hl h hs
  obtain ⟨v, i, hp, hval, hlen, hi, hid⟩ := (t.encLaws hw).elem hr hl
  refine ⟨v, i, by rw [hb]; exact hp, hval, ?_, hid, hi, ?_⟩
  · rw [hsz, BerView.berLength, hlen, u64_of_lt hl]
  · intro id k hh
    obtain ⟨w, hm⟩ := t.rep_matches hw hh hr hl hp
    exact ⟨by cases id <;> (have := hm.2.1; rw [hid] at this; simpa [Ident.outer] using this), w, hm⟩

/-- C35 (prefix freedom): if the encodings of two values, each followed by anything, agree, the encodings are
equal and so is what follows: no encoding is a strict prefix of another. -/
theorem C35_prefix_free (t : Ty) (hw : t.WF) {o1 o2 : Obj} (h1 : t.Fits o1) (h2 : t.Fits o2) (buf1 buf2 : Bytes)
    {r1 r2 : EncodeResult} {b1 b2 : Bytes} (e1 : t.encode o1 buf1 = .ok (r1, b1)) (s1 : r1.success = true)
    (e2 : t.encode o2 buf2 = .ok (r2, b2)) (s2 : r2.success = true) (rest1 rest2 : Bytes)
    (h : b1.take r1.length ++ rest1 = b2.take r2.length ++ rest2) :
    b1.take r1.length = b2.take r2.length ∧ rest1 = rest2 := by
  obtain ⟨x1, f1, hr1, hl1⟩ := h1
  obtain ⟨x2, f2, hr2, hl2⟩ := h2
  obtain ⟨_, hb1⟩ := encode_writes t hw hr1 hl1 e1 s1
  obtain ⟨_, hb2⟩ := encode_writes t hw hr2 hl2 e2 s2
  rw [hb1, hb2] at h ⊢
  obtain ⟨v1, i1, p1, v1v, l1, _⟩ := (t.encLaws hw).elem hr1 hl1
  obtain ⟨v2, i2, p2, v2v, l2, _⟩ := (t.encLaws hw).elem hr2 hl2
  exact elem_prefix p1 v1v l1 p2 v2v l2 h

/-- C35 (injectivity): for every legal type, two values with the same encoding are the same abstract value,
and compare equal (unless they do not even equal themselves). -/
theorem C35_injective (t : Ty) (hw : t.WF) (hp : t.Proper)
    {o1 o2 : Obj} (h1 : t.Fits o1) (h2 : t.Fits o2) (buf1 buf2 : Bytes)
    {r1 r2 : EncodeResult} {b1 b2 : Bytes} (e1 : t.encode o1 buf1 = .ok (r1, b1)) (s1 : r1.success = true)
    (e2 : t.encode o2 buf2 = .ok (r2, b2)) (s2 : r2.success = true)
    (h : b1.take r1.length = b2.take r2.length) : t.Agree o1 o2 ∧ (t.equal o1 o1 = .ok true → t.equal o1 o2 = .ok true) := by
  obtain ⟨x1, f1, hr1, hl1⟩ := h1
  obtain ⟨x2, f2, hr2, hl2⟩ := h2
  obtain ⟨_, hb1⟩ := encode_writes t hw hr1 hl1 e1 s1
  obtain ⟨_, hb2⟩ := encode_writes t hw hr2 hl2 e2 s2
  rw [hb1, hb2] at h
  subst h
  have hx := t.injLaw hw hp hr1 hr2 hl1
  subst hx
  refine ⟨⟨x1, f1, f1, hr1, hr2⟩, ?_⟩
  exact fun h => (t.eqIff hw hr1 hr2).2 ((t.eqIff hw hr1 hr1).1 h)

/-- Two different objects with one encoding: the bytes behind the content of a fixed-size integer are
arbitrary. -/
example : (Ty.leaf .int (univ 2)).Agree (.raw [2, 1, 5, 0, 0, 0, 0, 0, 0, 0]) (.raw [2, 1, 5, 9, 9, 9, 9, 9, 9, 9]) :=
  ⟨.content [5], [2, 1, 5], [2, 1, 5], ⟨[5], [0, 0, 0, 0, 0, 0, 0], rfl, by decide, by decide, by decide +kernel, rfl⟩,
    [5], [9, 9, 9, 9, 9, 9, 9], rfl, by decide, by decide, by decide +kernel, rfl⟩

/-! ## C44, C45: arbitrary bytes -/

/-- C44/C45 (`_partial`): decoding any bytes in which no element header overflows (`Sane`; every `Plain` byte
string is, see `Spec.Plain.tame`), into any type in which no SEQUENCE has a mandatory untagged CHOICE, from
any previous state, runs without undefined behaviour, terminates, and leaves the object holding a value.  A
CHOICE without a tag of its own must be given at least one complete element.
What is missing is false: see `C44_violated_*`, `C45_violated`. -/
theorem C44_decode_safe_partial (t : Ty) (hw : t.WF) (hg : t.Guarded) {bs : Bytes} (hs : Sane bs)
    (hc : t.isUntaggedChoice → StartsElement bs) {o0 : Obj} (h0 : t.Holds o0) :
    ∃ r o', t.decode o0 bs = .ok (r, o') ∧ t.Holds o' := by
  obtain ⟨_, r, o', _, _, h1, h2, _⟩ := t.decode_law hw hg hs hc h0
  exact ⟨r, o', h1, h2⟩

/-- C45 (`_partial`): under the same conditions decoding terminates. -/
theorem C45_decode_terminates_partial (t : Ty) (hw : t.WF) (hg : t.Guarded) {bs : Bytes} (hs : Sane bs)
    (hc : t.isUntaggedChoice → StartsElement bs) {o0 : Obj} (h0 : t.Holds o0) : t.decode o0 bs ≠ .loop := by
  obtain ⟨r, o', h1, _⟩ := C44_decode_safe_partial t hw hg hs hc h0
  rw [h1]; exact fun h => nomatch h

/-- A syntactic sufficient condition on the input. -/
theorem C44_decode_plain (t : Ty) (hw : t.WF) (hg : t.Guarded) {bs : Bytes} (hs : Plain bs)
    (hc : t.isUntaggedChoice → StartsElement bs) {o0 : Obj} (h0 : t.Holds o0) :
    ∃ r o', t.decode o0 bs = .ok (r, o') ∧ t.Holds o' :=
  C44_decode_safe_partial t hw hg hs.tame.sane hc h0

/-- Sample bytes and damaged sample bytes satisfy the hypotheses. -/
theorem plain_of_small {bs : Bytes} (h1 : ∀ b ∈ bs, b.toNat < 128) (h2 : bs.length < 2 ^ 56) : Plain bs where
  noLongRun := by
    intro r hr hl
    cases r with
    | nil => simp at hl
    | cons b r => exact ⟨b, by simp, h1 b (hr.subset (by simp))⟩
  noHugeLength := by
    intro h
    have := h1 0xFF (h.subset (by simp))
    revert this; decide
  size := h2

example : Plain [0x30, 6, 2, 1, 5, 2, 1, 6] := plain_of_small (by decide) (by decide)

/-- SEQUENCE { c CHOICE { p [7] BOOLEAN, q [8] NULL } }. -/
def bareChoice : Ty := .seq (univ 16) <|
  .cons .mandatory [⟨.contextSpecific, 7⟩, ⟨.contextSpecific, 8⟩]
    (.choice (.untagged [⟨.contextSpecific, 7⟩, ⟨.contextSpecific, 8⟩])
      (.cons [⟨.contextSpecific, 7⟩] (.leaf .bool (ctx 7)) <| .cons [⟨.contextSpecific, 8⟩] (.leaf .null (ctx 8)) .nil)) .nil

/-- C44 is violated: decoding the two bytes 30 00 (an empty SEQUENCE) into a SEQUENCE whose only component is
a mandatory untagged CHOICE dereferences a null pointer: no element is left, and the error message asks the
invalid view for its class. -/
theorem C44_violated_choice : bareChoice.decode (.struct [.alt 1 (.raw [0x88, 0])]) [0x30, 0] = .ub := by rfl

/-- C44 is violated: an explicit length close to 2^64 makes header + length wrap around; the SEQUENCE's content
then lies outside the input. -/
theorem C44_violated_length :
    (Ty.seqOf (univ 16) (.leaf .int (univ 2))).decode (.list []) [0x30, 0x88, 255, 255, 255, 255, 255, 255, 255, 246] =
      .ub := by rfl

/-- C44 is violated: a tag number beyond `int64_t` overflows a signed addition or shift. -/
theorem C44_violated_tag :
    (Ty.leaf .int (univ 2)).decode (.raw [2, 1, 0, 0, 0, 0, 0, 0, 0, 0])
      [0x1F, 255, 255, 255, 255, 255, 255, 255, 255, 255, 255, 0x7F, 0] = .ub := by rfl

/-- C45 is violated: ten bytes make SEQUENCE OF OCTET STRING loop for ever. -/
theorem C45_violated :
    (Ty.seqOf (univ 16) (.leaf .str (univ 4))).decode (.list [])
      [0x30, 10, 4, 0x88, 255, 255, 255, 255, 255, 255, 255, 246] = .loop := by
  have h : (Ty.seqOf (univ 16) (.leaf .str (univ 4))).decode (.list [])
      [0x30, 10, 4, 0x88, 255, 255, 255, 255, 255, 255, 255, 246] =
      (do let r ← decodeChildren (strCodec (univ 4)).init (strCodec (univ 4)).decode
                [4, 0x88, 255, 255, 255, 255, 255, 255, 255, 246] 0
          .ok (r.1, .list r.2)) := rfl
  rw [h, decodeChildren]
  rfl

/-! ## C65: exactly what is accepted -/

/-- C65: decoding sane bytes succeeds exactly when the first element is a BER encoding (in any BER form) of
some value of the type, and the object then holds such a value; for all types unambiguous by tag number. -/
theorem C65_decode_iff_reads (t : Ty) (hw : t.WF) (hu : t.Unamb) (hg : t.Guarded) {bs : Bytes} (hs : Sane bs)
    (hc : t.isUntaggedChoice → StartsElement bs) {o0 : Obj} (h0 : t.Holds o0) :
    ∃ v r o', BerView.parse bs = .ok v ∧ t.decode o0 bs = .ok (r, o') ∧
      (r = true ↔ ∃ x, t.Reads v x) ∧ (r = true → ∃ x e, t.Rep o' x e ∧ t.Reads v x) := by
  obtain ⟨v, r, o', h1, _, h2, _, h3, h4⟩ := t.decode_law hw hg hs hc h0
  have hacc : r = true → ∃ x e, t.Rep o' x e ∧ t.Reads v x := by
    intro hr
    obtain ⟨x, e, i, a1, _, _, _, _, _, a2⟩ := h3 hr
    exact ⟨x, e, a1, a2 hu.proper⟩
  exact ⟨v, r, o', h1, h2, ⟨fun hr => by obtain ⟨x, e, _, h⟩ := hacc hr; exact ⟨x, h⟩, h4 hu⟩, hacc⟩

/-- C65, soundness alone needs only a legal type. -/
theorem C65_sound (t : Ty) (hw : t.WF) (hp : t.Proper) (hg : t.Guarded) {bs : Bytes} (hs : Sane bs)
    (hc : t.isUntaggedChoice → StartsElement bs) {o0 : Obj} (h0 : t.Holds o0) {o' : Obj}
    (h : t.decode o0 bs = .ok (true, o')) : ∃ v x e, BerView.parse bs = .ok v ∧ t.Rep o' x e ∧ t.Reads v x := by
  obtain ⟨v, r, o'', h1, _, h2, _, h3, _⟩ := t.decode_law hw hg hs hc h0
  rw [h] at h2
  simp only [Exec.ok.injEq, Prod.mk.injEq] at h2
  obtain ⟨rfl, rfl⟩ := h2
  obtain ⟨x, e, i, a1, _, _, _, _, _, a2⟩ := h3 rfl
  exact ⟨v, x, e, h1, a1, a2 hp⟩

/-! ## C46, C47: rejection -/

/-- C46: on any input whatever, a type with a tag of its own never accepts an element whose class, tag number
or construction is not the type's (for an explicitly tagged type: the outer tag must match and be
constructed, and the inner element must match too), nor input that is not an element at all. -/
theorem C46_wrong_header_rejected (t : Ty) {id : Ident} {k : Construction} (ht : t.header = some (id, k)) (o0 : Obj)
    {bs : Bytes} {v : BerView} (hv : BerView.parse bs = .ok v) (h : ∀ w, ¬ Matches v id k w) (o' : Obj) :
    t.decode o0 bs ≠ .ok (true, o') := by
  intro hd
  simp only [Ty.decode, hv, Exec.ok_bind] at hd
  obtain ⟨w, hw⟩ := hasCorrectHeader_true.mp (Ty.decode_header ht hd)
  exact h w hw

/-- C46, spelled out for the outer element. -/
theorem C46_outer (t : Ty) {id : Ident} {k : Construction} (ht : t.header = some (id, k)) (o0 : Obj)
    {bs : Bytes} {v : BerView} (hv : BerView.parse bs = .ok v)
    (h : v.valid = false ∨ v.cls ≠ .ok id.outer.cls ∨ v.tag ≠ id.outer.tag ∨
      v.construction ≠ .ok (match id with | .single _ => k | .double _ _ => .constructed)) (o' : Obj) :
    t.decode o0 bs ≠ .ok (true, o') := by
  refine C46_wrong_header_rejected t ht o0 hv (fun w hm => ?_) o'
  cases id with
  | single i =>
    obtain ⟨h1, h2, h3, _⟩ := hm
    rw [identifier_eq_ok] at h2
    rcases h with h | h | h | h
    · rw [h1] at h; cases h
    · exact h h2.1
    · exact h h2.2
    · exact h h3
  | double o i =>
    obtain ⟨h1, h2, h3, _⟩ := hm
    rw [identifier_eq_ok] at h2
    rcases h with h | h | h | h
    · rw [h1] at h; cases h
    · exact h h2.1
    · exact h h2.2
    · exact h h3

/-- The sample type given a SET: right form, wrong tag. -/
example (o' : Obj) : sample.decode sampleObj (0x31 :: sampleBytes.tail) ≠ .ok (true, o') :=
  C46_outer sample (id := univ 16) (k := .constructed) rfl sampleObj
    (v := ⟨true, 0x31 :: sampleBytes.tail, 17, 2, 32⟩) (by decide +kernel) (.inr (.inr (.inl (by decide)))) o'

/-- C47: no strict prefix of an encoding is ever accepted, by any type, from any state. -/
theorem C47_truncation_never_accepted (t : Ty) (hw : t.WF) {o : Obj} (ho : t.Fits o) (buf : Bytes) {r : EncodeResult}
    {buf' : Bytes} (h : t.encode o buf = .ok (r, buf')) (hs : r.success = true) {n : Nat} (hn : n < r.length)
    (o0 o' : Obj) : t.decode o0 (buf'.take n) ≠ .ok (true, o') := by
  obtain ⟨x, e, hr, hl⟩ := ho
  obtain ⟨h1, h2⟩ := encode_writes t hw hr hl h hs
  obtain ⟨v, i, hp, hval, hlen, hi, hid⟩ := (t.encLaws hw).elem hr hl
  obtain ⟨k, hk⟩ := assign_take hp hval (by omega) n (by omega) 0
  have : buf'.take n = e.take n := by rw [← h2, List.take_take, Nat.min_eq_left (by omega)]
  rw [this]
  intro hd
  simp only [Ty.decode, BerView.parse, hk, Exec.ok_bind] at hd
  exact t.not_decode_invalid o0 k o' hd

/-- C47 (`_partial`): every type but an untagged CHOICE reports failure on every strict prefix of an encoding;
an untagged CHOICE may dereference a null pointer instead (`C47_violated`). -/
theorem C47_truncation_rejected_partial (t : Ty) (hw : t.WF) (ht : ¬ t.isUntaggedChoice) {o : Obj} (ho : t.Fits o)
    (buf : Bytes) {r : EncodeResult} {buf' : Bytes} (h : t.encode o buf = .ok (r, buf')) (hs : r.success = true)
    {n : Nat} (hn : n < r.length) {o0 : Obj} (h0 : t.Holds o0) :
    ∃ o', t.decode o0 (buf'.take n) = .ok (false, o') := by
  obtain ⟨x, e, hr, hl⟩ := ho
  obtain ⟨h1, h2⟩ := encode_writes t hw hr hl h hs
  obtain ⟨v, i, hp, hval, hlen, hi, hid⟩ := (t.encLaws hw).elem hr hl
  obtain ⟨k, hk⟩ := assign_take hp hval (by omega) n (by omega) 0
  have : buf'.take n = e.take n := by rw [← h2, List.take_take, Nat.min_eq_left (by omega)]
  rw [this]
  have hh : ∃ id k, t.header = some (id, k) := by
    match t, ht with
    | .leaf _ _, _ => exact ⟨_, _, rfl⟩
    | .seqOf _ _, _ => exact ⟨_, _, rfl⟩
    | .seq _ _, _ => exact ⟨_, _, rfl⟩
    | .set _ _ _, _ => exact ⟨_, _, rfl⟩
    | .choice (.tagged _) _, _ => exact ⟨_, _, rfl⟩
    | .choice (.untagged _) _, h => exact (h trivial).elim
  obtain ⟨id, c, hh⟩ := hh
  obtain ⟨o', ho'⟩ := Ty.decode_invalid hh h0 k
  exact ⟨o', by simp only [Ty.decode, BerView.parse, hk, Exec.ok_bind, ho']⟩

/-- C47 is violated for CHOICE { i INTEGER, b [2] BOOLEAN }: the empty prefix is not rejected but dereferences a
null pointer. -/
theorem C47_violated : clash.decode (.alt 0 (.raw [2, 1, 5, 0, 0, 0, 0, 0, 0, 0])) ([2, 1, 5].take 0) = .ub := by rfl

/-! ## C48: stability -/

/-- C48 (`_partial`: sane input, types unambiguous by tag number, no mandatory untagged CHOICE): whatever bytes
were accepted, the object can be encoded, and decoding that encoding (followed by anything, into any object)
succeeds with the same abstract value, comparing equal if the object equals itself; the new encoding is not longer than the input
element. -/
theorem C48_reencode_partial (t : Ty) (hw : t.WF) (hu : t.Unamb) (hg : t.Guarded) {bs : Bytes} (hs : Sane bs) (hst : t.isUntaggedChoice → StartsElement bs)
    {o0 : Obj} (h0 : t.Holds o0) {o : Obj} (h : t.decode o0 bs = .ok (true, o)) (buf : Bytes)
    (hbuf : t.encodedLength o ≤ buf.length) {o1 : Obj} (h1 : t.Holds o1) (suffix : Bytes) :
    t.encodedLength o ≤ bs.length ∧ ∃ r buf', t.encode o buf = .ok (r, buf') ∧ r.success = true ∧
      ∃ o', t.decode o1 (buf'.take r.length ++ suffix) = .ok (true, o') ∧ t.Agree o' o ∧ (t.equal o' o = .ok true ↔ t.equal o o = .ok true) := by
  obtain ⟨v, r, o'', hp, hsv, h2, _, h3, _⟩ := t.decode_law hw hg hs hst h0
  rw [h] at h2
  simp only [Exec.ok.injEq, Prod.mk.injEq] at h2
  obtain ⟨rfl, rfl⟩ := h2
  obtain ⟨x, e, i, a1, a2, a3, a4, _⟩ := h3 rfl
  obtain ⟨b1, b2, b3⟩ := hsv.bound a4
  have hm := (assign_valid hp a4).1
  rw [hm] at b2
  have hl : e.length < 2 ^ 64 := by omega
  have hsz : t.encodedLength o = e.length := (t.encLaws hw).size a1 hl
  refine ⟨by omega, ?_⟩
  obtain ⟨r, buf', c1, c2, _⟩ := C32_encode_exact t hw ⟨x, e, a1, hl⟩ buf
  have hsuc := c2.mpr hbuf
  refine ⟨r, buf', c1, hsuc, ?_⟩
  obtain ⟨o', d1, d2, d3⟩ := C33_round_trip_partial t hw hu a1 a2 hl buf c1 hsuc h1 suffix
  exact ⟨o', d1, ⟨x, e, e, d2, a1⟩, d3⟩

/-- Non-minimal input: length in long form, padded integer; accepted and re-encoded. -/
example : succeeded <| (Ty.leaf .int (univ 2)).decode (.raw [2, 1, 0, 0, 0, 0, 0, 0, 0, 0]) [2, 0x81, 2, 0, 5] := by
  decide +kernel

/-! ## C37: SEQUENCE OF -/

theorem all3_agree {t : Ty} {os os' : List Obj} {xs : List Val} {es es' : List Bytes} (h : all3 t.Rep os xs es)
    (h' : all3 t.Rep os' xs es') : all2 t.Agree os os' := by
  induction os generalizing os' xs es es' with
  | nil =>
    cases xs with
    | nil => cases os' with
      | nil => trivial
      | cons => cases es' <;> exact h'.elim
    | cons => cases es <;> exact h.elim
  | cons o os ih =>
    cases xs with
    | nil => cases es <;> exact h.elim
    | cons x xs =>
      cases es with
      | nil => exact h.elim
      | cons e es =>
        cases os' with
        | nil => cases es' <;> exact h'.elim
        | cons o' os' =>
          cases es' with
          | nil => exact h'.elim
          | cons e' es' => exact ⟨⟨x, e, e', h.1, h'.1⟩, ih h.2 h'.2⟩

/-- C37 (`_partial`: types unambiguous by tag number): decoding the encoding of a SEQUENCE OF / SET OF into a
list in any previous state gives a list with the same number of elements, in the same order, each holding the
same value. -/
theorem C37_order_partial (id : Ident) (t : Ty) (hw : (Ty.seqOf id t).WF) (hu : t.Unamb) {os : List Obj} {x : Val} {e : Bytes} (ho : (Ty.seqOf id t).Rep (.list os) x e)
    (hv : (Ty.seqOf id t).Valid x) (hl : e.length < 2 ^ 64) (buf : Bytes) {r : EncodeResult} {buf' : Bytes}
    (h : (Ty.seqOf id t).encode (.list os) buf = .ok (r, buf')) (hs : r.success = true) {os0 : List Obj}
    (h0 : (Ty.seqOf id t).Holds (.list os0)) (suffix : Bytes) :
    ∃ os', (Ty.seqOf id t).decode (.list os0) (buf'.take r.length ++ suffix) = .ok (true, .list os') ∧
      all2 t.Agree os os' := by
  obtain ⟨o', h1, h2, _⟩ := C33_round_trip_partial (.seqOf id t) hw hu ho hv hl buf h hs h0 suffix
  obtain ⟨os1, xs1, es1, ho1, rfl, _, a1⟩ := ho
  obtain ⟨os2, xs2, es2, rfl, hx, _, a2⟩ := h2
  simp only [Obj.list.injEq] at ho1
  simp only [Val.list.injEq] at hx
  subst ho1; subst hx
  exact ⟨os2, h1, all3_agree a1 a2⟩

/-- C37: the previous content of the list does not matter, on any input: not even when decoding fails. -/
theorem C37_previous_state (id : Ident) (t : Ty) (os1 os2 : List Obj) (bs : Bytes) :
    (Ty.seqOf id t).decode (.list os1) bs = (Ty.seqOf id t).decode (.list os2) bs := rfl

/-- C37 (`_partial`: sane input): if a SEQUENCE OF / SET OF decodes, every element inside it was decoded, in
order, each into a fresh object, and the list is exactly their results: an element that does not decode makes
the whole decode fail. -/
theorem C37_child_failure_partial (id : Ident) (t : Ty) (os0 : List Obj) {bs : Bytes} (hs : Sane bs) {o' : Obj}
    (h : (Ty.seqOf id t).decode (.list os0) bs = .ok (true, o')) :
    ∃ v w c vs os', BerView.parse bs = .ok v ∧ Matches v id .constructed w ∧ w.content = .ok c ∧ Elements c vs ∧
      o' = .list os' ∧ all2 (fun u o => ∃ new, t.codec.init = .ok new ∧ t.codec.decode new u = .ok (true, o)) vs os' := by
  obtain ⟨v, hv, hsv, _⟩ := hs.assign 0
  have hd : (Ty.seqOf id t).codec.decode (.list os0) v = .ok (true, o') := by
    have h' := h
    simp only [Ty.decode, BerView.parse, hv, Exec.ok_bind] at h'
    exact h'
  obtain ⟨w, hm⟩ := hasCorrectHeader_true.mp (Ty.decode_header (t := .seqOf id t) rfl hd)
  have hsw := matches_sane hsv hm
  have hwk : w.construction = .ok .constructed := by
    cases id with
    | single i => obtain ⟨_, _, h3, rfl⟩ := hm; exact h3
    | double o i => obtain ⟨_, _, _, _, _, _, _, _, h3⟩ := hm; exact h3
  have hsc := hsw.inner (matches_valid hm).2 hwk
  have hc := hsw.content
  obtain ⟨vs, hel, _⟩ := sane_elements hsc
  simp only [Ty.codec, seqOfCodec, hasCorrectHeader_true.mpr ⟨w, hm⟩, Exec.ok_bind, Bool.not_true, Bool.false_eq_true,
    if_false, innerView_of_matches hm, hc] at hd
  cases hr : decodeChildren t.codec.init t.codec.decode ((w.mem.drop w.hdr).take w.len) 0 with
  | ub => rw [hr] at hd; cases hd
  | loop => rw [hr] at hd; cases hd
  | ok s =>
    rw [hr] at hd
    simp only [Exec.ok_bind, Exec.ok.injEq, Prod.mk.injEq] at hd
    exact ⟨v, w, _, vs, s.2, hv, hm, hc, hel, hd.2.symm, decodeChildren_true hel hsc 0 (by rw [hr, ← hd.1])⟩

/-- A BOOLEAN of two octets in a SEQUENCE OF BOOLEAN: the whole fails. -/
example : (Ty.seqOf (univ 16) (.leaf .bool (univ 1))).decode (.list []) [0x30, 7, 1, 1, 0xFF, 1, 2, 0, 0] =
    .ok (false, .list [.raw [1, 1, 0xFF], .raw [1, 1, 0]]) := by
  have h : (Ty.seqOf (univ 16) (.leaf .bool (univ 1))).decode (.list []) [0x30, 7, 1, 1, 0xFF, 1, 2, 0, 0] =
      (do let r ← decodeChildren (boolCodec (univ 1)).init (boolCodec (univ 1)).decode [1, 1, 0xFF, 1, 2, 0, 0] 0
          .ok (r.1, .list r.2)) := rfl
  rw [h, decodeChildren]
  have h1 : BerView.assign [1, 1, 255, 1, 2, 0, 0] 0 = .ok ⟨true, [1, 1, 255, 1, 2, 0, 0], 1, 2, 1⟩ := by decide +kernel
  have h2 : BerView.assign [1, 2, 0, 0] 1 = .ok ⟨true, [1, 2, 0, 0], 1, 2, 2⟩ := by decide +kernel
  rw [h1]
  simp only [if_true]
  have h3 : (boolCodec (univ 1)).init = .ok (.raw [1, 1, 0]) := rfl
  have h4 : (boolCodec (univ 1)).decode (.raw [1, 1, 0]) ⟨true, [1, 1, 255, 1, 2, 0, 0], 1, 2, 1⟩ = .ok (true, .raw [1, 1, 0xFF]) := rfl
  have h5 : (boolCodec (univ 1)).decode (.raw [1, 1, 0]) ⟨true, [1, 2, 0, 0], 1, 2, 2⟩ = .ok (false, .raw [1, 1, 0]) := rfl
  simp only [h3, h4, Exec.ok_bind]
  rw [← h3]
  simp only [Bool.not_true, Bool.false_eq_true, if_false]
  rw [dif_pos (by decide)]
  have h6 : List.drop (BerView.berLength ⟨true, [1, 1, 255, 1, 2, 0, 0], 1, 2, 1⟩) [1, 1, 255, 1, 2, 0, (0 : UInt8)] = [1, 2, 0, 0] := by decide +kernel
  rw [h6, decodeChildren, h2]
  simp only [if_true, h3, h5, Exec.ok_bind, Bool.not_false]

/-! ## C38, C39: OPTIONAL and DEFAULT -/

/-- Remove component `n` from a component list. -/
def dropField : Fields → Nat → Fields
  | .nil, _ => .nil
  | .cons _ _ _ rest, 0 => rest
  | .cons k l t rest, n + 1 => .cons k l t (dropField rest n)

theorem encodeAll_id (es : List (Bytes → Exec (EncodeResult × Bytes))) (buf : Bytes) :
    encodeAll ((fun b => .ok (⟨true, 0⟩, b)) :: es) buf = encodeAll es buf := by
  rw [encodeAll]
  simp only [Exec.ok_bind, Bool.not_true, Bool.false_eq_true, if_false, List.drop_zero, List.take_zero, List.nil_append]
  cases h : encodeAll es buf with
  | ub => rfl
  | loop => rfl
  | ok s =>
    simp only [Exec.ok_bind]
    obtain ⟨⟨b, n⟩, bs⟩ := s
    cases b <;> simp

theorem encode_absent (fs : Fields) : ∀ (n : Nat) (c : Comp) (os : List Obj), fs.comps[n]? = some c → c.kind ≠ .mandatory →
    os[n]? = some .none → ∀ buf, encodeAll (encodersOf fs.fields os) buf =
      encodeAll (encodersOf (dropField fs n).fields (os.eraseIdx n)) buf := by
  match fs with
  | .nil => intro n c os h; simp [Fields.comps] at h
  | .cons k l t rest =>
    intro n c os hn hk ho buf
    cases os with
    | nil => simp at ho
    | cons o os =>
      cases n with
      | zero =>
        simp only [Fields.comps, List.getElem?_cons_zero, Option.some.injEq] at hn ho
        subst hn; subst ho
        simp only [Fields.fields, encodersOf, dropField, List.eraseIdx_zero, List.tail_cons]
        have : (Field.mk k l t.codec).encode .none = fun b => .ok (⟨true, 0⟩, b) := by
          funext b
          cases k with
          | mandatory => exact (hk rfl).elim
          | optional => rfl
          | default d => rfl
        rw [this, encodeAll_id]
      | succ n =>
        simp only [Fields.comps, List.getElem?_cons_succ] at hn ho
        simp only [Fields.fields, encodersOf, dropField, List.eraseIdx_cons_succ]
        have ih := encode_absent rest n c os hn hk ho
        rw [encodeAll, encodeAll]
        simp only [ih]

/-- C38/C39: an absent OPTIONAL component and a DEFAULT component that stores no value contribute no octets: `encode`
does exactly what it does for the type without that component. -/
theorem C38_absent_no_octets (id : Ident) (fs : Fields) {n : Nat} {c : Comp} (hn : fs.comps[n]? = some c)
    (hk : c.kind ≠ .mandatory) {os : List Obj} (ho : os[n]? = some .none) (buf : Bytes) :
    (Ty.seq id fs).encode (.struct os) buf = (Ty.seq id (dropField fs n)).encode (.struct (os.eraseIdx n)) buf ∧
    ∀ ext, (Ty.set id ext fs).encode (.struct os) buf =
      (Ty.set id ext (dropField fs n)).encode (.struct (os.eraseIdx n)) buf := by
  have h : encodeAll (encodersOf fs.fields os) = encodeAll (encodersOf (dropField fs n).fields (os.eraseIdx n)) :=
    funext (encode_absent fs n c os hn hk ho)
  have h' : encodeWrapped id (encodeAll (encodersOf fs.fields os)) buf =
      encodeWrapped id (encodeAll (encodersOf (dropField fs n).fields (os.eraseIdx n))) buf := by rw [h]
  exact ⟨h', fun ext => h'⟩

example : sampleFields.comps[2]? = some ⟨.default (.raw [1, 1, 0]), [⟨.universal, 1⟩], .leaf .bool (univ 1)⟩ := rfl

/-- Same state of an OPTIONAL/DEFAULT member: both absent, or both present with the same value. -/
def sameMember (t : Ty) (a b : Obj) : Prop :=
  (a = .none ∧ b = .none) ∨ ∃ x y, a = .some x ∧ b = .some y ∧ t.Agree x y

theorem comps_same {fs : Fields} {os os' : List Obj} {xs : List Val} {es es' : List Bytes} (h : fs.Rep os xs es)
    (h' : fs.Rep os' xs es') {n : Nat} {c : Comp} (hn : fs.comps[n]? = some c) :
    ∃ a b, os[n]? = some a ∧ os'[n]? = some b ∧
      ((c.kind = .mandatory ∧ c.ty.Agree a b) ∨ (c.kind ≠ .mandatory ∧ sameMember c.ty a b)) := by
  rw [Fields.rep_iff] at h h'
  obtain ⟨a, x, e, h1, h2, _, h3⟩ := compsRep_get h hn
  obtain ⟨b, y, f, g1, g2, _, g3⟩ := compsRep_get h' hn
  rw [h2] at g2
  simp only [Option.some.injEq] at g2
  subst g2
  refine ⟨a, b, h1, g1, ?_⟩
  rcases comp_cases h3 with ⟨hk, r1⟩ | ⟨hk, rfl, rfl, rfl⟩ | ⟨hk, o1, x1, rfl, rfl, r1⟩
  · rcases comp_cases g3 with ⟨_, r2⟩ | ⟨hk', _⟩ | ⟨hk', _⟩
    · exact .inl ⟨hk, x, e, f, r1, r2⟩
    · exact (hk' hk).elim
    · exact (hk' hk).elim
  · rcases comp_cases g3 with ⟨hk', _⟩ | ⟨_, rfl, _, _⟩ | ⟨_, _, _, _, hx, _⟩
    · exact (hk hk').elim
    · exact .inr ⟨hk, .inl ⟨rfl, rfl⟩⟩
    · cases hx
  · rcases comp_cases g3 with ⟨hk', _⟩ | ⟨_, _, hx, _⟩ | ⟨_, o2, x2, rfl, hx, r2⟩
    · exact (hk hk').elim
    · cases hx
    · simp only [Val.present.injEq] at hx
      subst hx
      exact .inr ⟨hk, .inr ⟨o1, o2, rfl, rfl, x1, e, f, r1, r2⟩⟩

/-- C38 (`_partial`: types unambiguous by tag number): after encoding a SEQUENCE and decoding into an object in any
previous state, every OPTIONAL (and DEFAULT) component is absent exactly if it was absent, and otherwise
present with the same value; every mandatory component has the same value. -/
theorem C38_seq_presence_partial (id : Ident) (fs : Fields) (hw : (Ty.seq id fs).WF) (hu : (Ty.seq id fs).Unamb)
    {os : List Obj} {x : Val}
    {e : Bytes} (ho : (Ty.seq id fs).Rep (.struct os) x e) (hv : (Ty.seq id fs).Valid x) (hl : e.length < 2 ^ 64)
    (buf : Bytes) {r : EncodeResult} {buf' : Bytes} (h : (Ty.seq id fs).encode (.struct os) buf = .ok (r, buf'))
    (hs : r.success = true) {o0 : Obj} (h0 : (Ty.seq id fs).Holds o0) (suffix : Bytes) :
    ∃ os', (Ty.seq id fs).decode o0 (buf'.take r.length ++ suffix) = .ok (true, .struct os') ∧
      ∀ (n : Nat) (c : Comp), fs.comps[n]? = some c → ∃ a b, os[n]? = some a ∧ os'[n]? = some b ∧
        ((c.kind = .mandatory ∧ c.ty.Agree a b) ∨ (c.kind ≠ .mandatory ∧ sameMember c.ty a b)) := by
  obtain ⟨o', h1, h2, _⟩ := C33_round_trip_partial (.seq id fs) hw hu ho hv hl buf h hs h0 suffix
  obtain ⟨os1, xs1, es1, ho1, rfl, _, a1⟩ := ho
  obtain ⟨os2, xs2, es2, rfl, hx, _, a2⟩ := h2
  simp only [Obj.struct.injEq] at ho1
  simp only [Val.struct.injEq] at hx
  subst ho1; subst hx
  exact ⟨os2, h1, fun n c hn => comps_same a1 a2 hn⟩

/-- C38 for SET. -/
theorem C38_set_presence_partial (id : Ident) (ext : Bool) (fs : Fields) (hw : (Ty.set id ext fs).WF)
    (hu : (Ty.set id ext fs).Unamb) {os : List Obj} {x : Val}
    {e : Bytes} (ho : (Ty.set id ext fs).Rep (.struct os) x e) (hv : (Ty.set id ext fs).Valid x) (hl : e.length < 2 ^ 64)
    (buf : Bytes) {r : EncodeResult} {buf' : Bytes} (h : (Ty.set id ext fs).encode (.struct os) buf = .ok (r, buf'))
    (hs : r.success = true) {o0 : Obj} (h0 : (Ty.set id ext fs).Holds o0) (suffix : Bytes) :
    ∃ os', (Ty.set id ext fs).decode o0 (buf'.take r.length ++ suffix) = .ok (true, .struct os') ∧
      ∀ (n : Nat) (c : Comp), fs.comps[n]? = some c → ∃ a b, os[n]? = some a ∧ os'[n]? = some b ∧
        ((c.kind = .mandatory ∧ c.ty.Agree a b) ∨ (c.kind ≠ .mandatory ∧ sameMember c.ty a b)) := by
  obtain ⟨o', h1, h2, _⟩ := C33_round_trip_partial (.set id ext fs) hw hu ho hv hl buf h hs h0 suffix
  obtain ⟨os1, xs1, es1, ho1, rfl, _, a1⟩ := ho
  obtain ⟨os2, xs2, es2, rfl, hx, _, a2⟩ := h2
  simp only [Obj.struct.injEq] at ho1
  simp only [Val.struct.injEq] at hx
  subst ho1; subst hx
  exact ⟨os2, h1, fun n c hn => comps_same a1 a2 hn⟩

/-- C39: assigning a value to a DEFAULT component stores nothing exactly when `operator==` says it is the default;
reading it back gives the value assigned, or the default it equals. -/
theorem C39_assign (t : Ty) (hw : t.WF) (hc : t.Leaves leafCmpTotal) {d val : Obj} (hd : t.Holds d) (hv : t.Holds val) :
    ∃ b m, t.equal d val = .ok b ∧ Default.assign t d val = .ok m ∧
      (b = true → m = .none ∧ Default.get d m = d) ∧ (b = false → m = .some val ∧ Default.get d m = val) := by
  obtain ⟨x, e, hd⟩ := hd
  obtain ⟨y, f, hv⟩ := hv
  obtain ⟨b, h1, _⟩ := t.eqLaw hw hc hd hv
  refine ⟨b, if b then .none else .some val, h1, ?_, ?_, ?_⟩
  · simp only [Default.assign, h1, Exec.ok_bind]; cases b <;> rfl
  · rintro rfl; exact ⟨rfl, rfl⟩
  · rintro rfl; exact ⟨rfl, rfl⟩

/-- C39: the same, whenever the assignment ends (comparisons of REALs and times need not). -/
theorem C39_assigned (t : Ty) {d val m : Obj} (h : Default.assign t d val = .ok m) :
    ∃ b, t.equal d val = .ok b ∧ (b = true → m = .none ∧ Default.get d m = d) ∧ (b = false → m = .some val ∧ Default.get d m = val) := by
  unfold Default.assign at h
  unfold Ty.equal
  cases he : t.codec.eq d val with
  | ok b =>
    rw [he] at h
    refine ⟨b, rfl, ?_, ?_⟩
    · rintro rfl; cases h; exact ⟨rfl, rfl⟩
    · rintro rfl; cases h; exact ⟨rfl, rfl⟩
  | ub => rw [he] at h; cases h
  | loop => rw [he] at h; cases h

/-- C39 (`_partial`: types unambiguous by tag number): a SEQUENCE whose DEFAULT component was assigned a value (and
that is otherwise in any state) is encoded without that component if the value equals the default, and after
decoding, from any previous state, the component reads as a value equal to the one assigned (which must equal itself). -/
theorem C39_default_partial (id : Ident) (fs : Fields) (hw : (Ty.seq id fs).WF) (hu : (Ty.seq id fs).Unamb)
    {n : Nat} {c : Comp} {d : Obj}
    (hn : fs.comps[n]? = some c) (hk : c.kind = .default d) (hcw : c.ty.WF)
    {val : Obj} (hval : c.ty.Holds val) (hself : c.ty.equal val val = .ok true)
    {m : Obj} (hm : Default.assign c.ty d val = .ok m) {os : List Obj} (hos : os[n]? = some m) {x : Val}
    {e : Bytes} (ho : (Ty.seq id fs).Rep (.struct os) x e) (hv : (Ty.seq id fs).Valid x) (hl : e.length < 2 ^ 64)
    (buf : Bytes) {r : EncodeResult} {buf' : Bytes} (h : (Ty.seq id fs).encode (.struct os) buf = .ok (r, buf'))
    (hs : r.success = true) {o0 : Obj} (h0 : (Ty.seq id fs).Holds o0) (suffix : Bytes) :
    (c.ty.equal d val = .ok true → (Ty.seq id fs).encode (.struct os) buf =
      (Ty.seq id (dropField fs n)).encode (.struct (os.eraseIdx n)) buf) ∧
    ∃ os' m', (Ty.seq id fs).decode o0 (buf'.take r.length ++ suffix) = .ok (true, .struct os') ∧
      os'[n]? = some m' ∧ c.ty.equal (Default.get d m') val = .ok true := by
  have hnm : c.kind ≠ .mandatory := by rw [hk]; exact fun h => nomatch h
  obtain ⟨b, a1, a3, a4⟩ := C39_assigned c.ty hm
  refine ⟨?_, ?_⟩
  · intro hb
    rw [a1] at hb
    simp only [Exec.ok.injEq] at hb
    rw [(a3 hb).1] at hos
    exact (C38_absent_no_octets id fs hn hnm hos buf).1
  · obtain ⟨os', h1, h2⟩ := C38_seq_presence_partial id fs hw hu ho hv hl buf h hs h0 suffix
    obtain ⟨a, b', h3, h4, h5⟩ := h2 n c hn
    rw [hos] at h3
    simp only [Option.some.injEq] at h3
    subst h3
    refine ⟨os', b', h1, h4, ?_⟩
    rcases h5 with ⟨h, _⟩ | ⟨_, h⟩
    · exact (hnm h).elim
    · cases b with
      | true =>
        obtain ⟨hm0, _⟩ := a3 rfl
        rcases h with ⟨_, rfl⟩ | ⟨p, q, hp, _⟩
        · exact a1
        · rw [hm0] at hp; cases hp
      | false =>
        obtain ⟨hm0, _⟩ := a4 rfl
        rcases h with ⟨hp, _⟩ | ⟨p, q, hp, rfl, y, f, g, r1, r2⟩
        · rw [hm0] at hp; cases hp
        · rw [hm0] at hp
          simp only [Obj.some.injEq] at hp
          subst hp
          exact (c.ty.eqIff hcw r2 r1).2 ((c.ty.eqIff hcw r1 r1).1 hself)

example : Default.assign (.leaf .bool (univ 1)) (.raw [1, 1, 0]) (.raw [1, 1, 0]) = .ok .none ∧
    Default.assign (.leaf .bool (univ 1)) (.raw [1, 1, 0]) (.raw [1, 1, 7]) = .ok (.some (.raw [1, 1, 7])) := ⟨rfl, rfl⟩

/-- SEQUENCE { b BOOLEAN DEFAULT FALSE }. -/
def defaulted : Ty := .seq (univ 16) (.cons (.default (.raw [1, 1, 0])) [⟨.universal, 1⟩] (.leaf .bool (univ 1)) .nil)

/-- C39 is violated after decoding: a received component that equals its default is stored explicitly, and is encoded
again: 5 octets where the default needs 2. -/
theorem C39_violated_after_decode :
    defaulted.decode (.struct [.none]) [0x30, 3, 1, 1, 0] = .ok (true, .struct [.some (.raw [1, 1, 0])]) ∧
    defaulted.equal (.struct [.some (.raw [1, 1, 0])]) (.struct [.none]) = .ok true ∧
    defaulted.encodedLength (.struct [.some (.raw [1, 1, 0])]) = 5 ∧ defaulted.encodedLength (.struct [.none]) = 2 :=
  ⟨rfl, rfl, rfl, rfl⟩

/-! ## C40-C42: components of SEQUENCE and SET -/

/-- What a successful decode of a SEQUENCE or SET has read. -/
theorem coll_reads {t : Ty} (hw : t.WF) (hp : t.Proper) (hg : t.Guarded) (hnc : ¬ t.isUntaggedChoice) {bs : Bytes} (hs : Sane bs)
    {o0 : Obj} (h0 : t.Holds o0) {v : BerView} (hv : BerView.parse bs = .ok v) :
    ∃ r o', t.decode o0 bs = .ok (r, o') ∧ (r = true → ∃ x e, t.Rep o' x e ∧ t.Reads v x) := by
  obtain ⟨v', r, o', h1, _, h2, _, h3, _⟩ := t.decode_law hw hg hs (fun h => (hnc h).elim) h0
  rw [hv] at h1
  simp only [Exec.ok.injEq] at h1
  subst h1
  refine ⟨r, o', h2, fun hr => ?_⟩
  obtain ⟨x, e, i, a1, _, _, _, _, _, a2⟩ := h3 hr
  exact ⟨x, e, a1, a2 hp⟩

/-- C40 (`_partial`: sane input, legal types without mandatory untagged CHOICE): a SEQUENCE fails to decode, from any
previous state, when for some mandatory component no element inside it has one of the component's
identifiers. -/
theorem C40_seq_missing_partial (id : Ident) (fs : Fields) (hw : (Ty.seq id fs).WF) (hp : (Ty.seq id fs).Proper)
    (hg : (Ty.seq id fs).Guarded) {bs : Bytes} (hs : Sane bs) {v w : BerView} {content : Bytes} {vs : List BerView}
    (hv : BerView.parse bs = .ok v) (hm : Matches v id .constructed w) (hcon : w.content = .ok content)
    (hel : Elements content vs) {c : Comp} (hc : c ∈ fs.comps) (hk : c.kind = .mandatory)
    (hmiss : ∀ u ∈ vs, hasId c.ty.outer u = false) {o0 : Obj} (h0 : (Ty.seq id fs).Holds o0) :
    ∃ o', (Ty.seq id fs).decode o0 bs = .ok (false, o') := by
  obtain ⟨r, o', h1, h2⟩ := coll_reads hw hp hg (fun h => h) hs h0 hv
  cases r with
  | false => exact ⟨o', h1⟩
  | true =>
    obtain ⟨x, e, _, w', bs', vs', xs, hm', hc', hel', rfl, hr⟩ := h2 rfl
    rw [matches_unique hm' hm, hcon] at hc'
    simp only [Exec.ok.injEq] at hc'
    subst hc'
    rw [hel'.unique hel, Fields.readsSeq_iff] at hr
    obtain ⟨u, hu, x, hx⟩ := readsSeq_mandatory hr hc hk
    have := c.ty.reads_outer u x hx (hel.valid u hu)
    rw [hmiss u hu] at this
    cases this

/-- C40 for SET. -/
theorem C40_set_missing_partial (id : Ident) (ext : Bool) (fs : Fields) (hw : (Ty.set id ext fs).WF)
    (hp : (Ty.set id ext fs).Proper) (hg : (Ty.set id ext fs).Guarded) {bs : Bytes} (hs : Sane bs) {v w : BerView}
    {content : Bytes} {vs : List BerView} (hv : BerView.parse bs = .ok v) (hm : Matches v id .constructed w)
    (hcon : w.content = .ok content) (hel : Elements content vs) {c : Comp} (hc : c ∈ fs.comps)
    (hk : c.kind = .mandatory) (hmiss : ∀ u ∈ vs, hasId c.ty.outer u = false) {o0 : Obj}
    (h0 : (Ty.set id ext fs).Holds o0) : ∃ o', (Ty.set id ext fs).decode o0 bs = .ok (false, o') := by
  obtain ⟨r, o', h1, h2⟩ := coll_reads hw hp hg (fun h => h) hs h0 hv
  cases r with
  | false => exact ⟨o', h1⟩
  | true =>
    obtain ⟨x, e, _, w', bs', vs', xs, hm', hc', hel', rfl, hr, _⟩ := h2 rfl
    rw [matches_unique hm' hm, hcon] at hc'
    simp only [Exec.ok.injEq] at hc'
    subst hc'
    rw [hel'.unique hel, Fields.readsSet_iff] at hr
    have := readsSet_mandatory hr hc hk
    rw [List.filter_eq_nil_iff.mpr (fun u hu => by simp [hmiss u hu])] at this
    cases this

/-- The sample without its INTEGER. -/
example : Sane [0x30, 3, 1, 1, 0] ∧ ∃ v w, BerView.parse [0x30, 3, 1, 1, 0] = .ok v ∧ Matches v (univ 16) .constructed w ∧
    w.content = .ok [1, 1, 0] ∧ Elements [1, 1, 0] [⟨true, [1, 1, 0], 1, 2, 1⟩] ∧
    hasId (Ty.leaf .int (univ 2)).outer ⟨true, [1, 1, 0], 1, 2, 1⟩ = false := by
  refine ⟨(plain_of_small (by decide) (by decide)).tame.sane, _, _, rfl, ⟨rfl, rfl, rfl, rfl⟩, rfl, ?_, by decide +kernel⟩
  exact .step rfl rfl (.stop rfl rfl)

/-- C41 (`_partial`: types unambiguous by tag number): a SET decodes, from any previous state and whatever follows, to
the same value from the encodings of its components in any order. -/
theorem C41_set_any_order_partial (id : Ident) (ext : Bool) (fs : Fields) (hw : (Ty.set id ext fs).WF)
    (hu : (Ty.set id ext fs).Unamb) {os : List Obj} {xs : List Val} {es es' : List Bytes} (h : fs.Rep os xs es)
    (hval : fs.Valid xs) (hp : es.Perm es') (hl : (tagged id .constructed es'.flatten).length < 2 ^ 64)
    {o0 : Obj} (h0 : (Ty.set id ext fs).Holds o0) (suffix : Bytes) :
    ∃ os', (Ty.set id ext fs).decode o0 (tagged id .constructed es'.flatten ++ suffix) = .ok (true, .struct os') ∧
      fs.Rep os' xs es := by
  obtain ⟨x0, e0, os0, xs0, es0, rfl, rfl, rfl, h0⟩ := h0
  have ha := assign_tagged id hw.1 .constructed es'.flatten suffix 0 hl
  obtain ⟨os', h1, h2⟩ := set_perm id hw.1 ext fs (fs.encLaws hw.2) (fs.roundLaw hw.2 hu.2) hu.1 h hval hp hl
    ⟨xs0, es0, (Fields.rep_iff _ _ _ _).mp h0⟩ ha
  exact ⟨os', by simp only [Ty.decode, BerView.parse, ha, Exec.ok_bind, h1], h2⟩

/-- ENUMERATED before NULL: not the order of declaration. -/
example : succeeded <| (Ty.set (univ 17) true sampleSet).decode (.struct [.none, .raw [10, 1, 0, 0, 0, 0, 0, 0, 0, 0]])
    [0x31, 5, 10, 1, 3, 5, 0] := by decide +kernel

/-- C42 (`_partial`: sane input, legal types without mandatory untagged CHOICE): a SET fails to decode when two of its
elements carry identifiers of the same component. -/
theorem C42_duplicate_partial (id : Ident) (ext : Bool) (fs : Fields) (hw : (Ty.set id ext fs).WF)
    (hp : (Ty.set id ext fs).Proper) (hg : (Ty.set id ext fs).Guarded) {bs : Bytes} (hs : Sane bs) {v w : BerView}
    {content : Bytes} {vs : List BerView} (hv : BerView.parse bs = .ok v) (hm : Matches v id .constructed w)
    (hcon : w.content = .ok content) (hel : Elements content vs) {c : Comp} (hc : c ∈ fs.comps)
    (hdup : 2 ≤ (vs.filter (hasId c.ty.outer)).length) {o0 : Obj}
    (h0 : (Ty.set id ext fs).Holds o0) : ∃ o', (Ty.set id ext fs).decode o0 bs = .ok (false, o') := by
  obtain ⟨r, o', h1, h2⟩ := coll_reads hw hp hg (fun h => h) hs h0 hv
  cases r with
  | false => exact ⟨o', h1⟩
  | true =>
    obtain ⟨x, e, _, w', bs', vs', xs, hm', hc', hel', rfl, hr, _⟩ := h2 rfl
    rw [matches_unique hm' hm, hcon] at hc'
    simp only [Exec.ok.injEq] at hc'
    subst hc'
    rw [hel'.unique hel, Fields.readsSet_iff] at hr
    have := readsSet_once hr hc
    omega

/-- C42: a SET that is not extensible (and has components) fails to decode when an element has an identifier of no
component.  (A SET without components accepts anything, see `C42_violated_empty`.) -/
theorem C42_unknown_partial (id : Ident) (fs : Fields) (hne : fs ≠ .nil) (hw : (Ty.set id false fs).WF)
    (hp : (Ty.set id false fs).Proper) (hg : (Ty.set id false fs).Guarded) {bs : Bytes} (hs : Sane bs) {v w : BerView}
    {content : Bytes} {vs : List BerView} (hv : BerView.parse bs = .ok v) (hm : Matches v id .constructed w)
    (hcon : w.content = .ok content) (hel : Elements content vs) {u : BerView} (hu : u ∈ vs)
    (hunk : ∀ c ∈ fs.comps, hasId c.ty.outer u = false) {o0 : Obj}
    (h0 : (Ty.set id false fs).Holds o0) : ∃ o', (Ty.set id false fs).decode o0 bs = .ok (false, o') := by
  obtain ⟨r, o', h1, h2⟩ := coll_reads hw hp hg (fun h => h) hs h0 hv
  cases r with
  | false => exact ⟨o', h1⟩
  | true =>
    obtain ⟨x, e, _, w', bs', vs', xs, hm', hc', hel', rfl, _, hr⟩ := h2 rfl
    rw [matches_unique hm' hm, hcon] at hc'
    simp only [Exec.ok.injEq] at hc'
    subst hc'
    rw [hel'.unique hel] at hr
    rcases hr u hu with h | h | h
    · cases h
    · exact (hne h).elim
    · rw [hasId_iff] at h
      obtain ⟨i, hi, hmem⟩ := h
      rw [Fields.outer_mem] at hmem
      obtain ⟨c, hc, hic⟩ := hmem
      have := hasId_iff.mpr ⟨i, hi, hic⟩
      rw [hunk c hc] at this
      cases this

/-- C42 is violated by a SET (or SEQUENCE) without components, not extensible: anything inside it is accepted. -/
theorem C42_violated_empty : (Ty.set (univ 17) false .nil).decode (.struct []) [0x31, 3, 2, 1, 5] = .ok (true, .struct []) := rfl

/-- C42 (`_partial`: sane input, types unambiguous by tag number): an extensible SET decodes exactly when what is left
after removing the elements with unknown identifiers is a SET value, and to that value. -/
theorem C42_extensible_partial (id : Ident) (fs : Fields) (hw : (Ty.set id true fs).WF)
    (hu : (Ty.set id true fs).Unamb) (hg : (Ty.set id true fs).Guarded) {bs : Bytes} (hs : Sane bs) {v w : BerView}
    {content : Bytes} {vs : List BerView} (hv : BerView.parse bs = .ok v) (hm : Matches v id .constructed w)
    (hcon : w.content = .ok content) (hel : Elements content vs) {o0 : Obj} (h0 : (Ty.set id true fs).Holds o0) :
    ∃ r o', (Ty.set id true fs).decode o0 bs = .ok (r, o') ∧
      (r = true ↔ ∃ xs, fs.ReadsSet (vs.filter (hasId fs.outer)) xs) ∧
      (r = true → ∃ xs e, (Ty.set id true fs).Rep o' (.struct xs) e ∧ fs.ReadsSet (vs.filter (hasId fs.outer)) xs) := by
  have key : ∀ xs, fs.ReadsSet (vs.filter (hasId fs.outer)) xs ↔ fs.ReadsSet vs xs := by
    intro xs
    rw [Fields.readsSet_iff, Fields.readsSet_iff]
    refine readsSet_filter _ _ _ _ fun c hc u hcu => ?_
    rw [hasId_iff] at hcu ⊢
    obtain ⟨i, hi, hic⟩ := hcu
    exact ⟨i, hi, (Fields.outer_mem fs i).mpr ⟨c, hc, hic⟩⟩
  obtain ⟨v', r, o', h1, h2, h3, h4⟩ := C65_decode_iff_reads (.set id true fs) hw hu hg hs (fun h => h.elim) h0
  rw [hv] at h1
  simp only [Exec.ok.injEq] at h1
  subst h1
  have hback : ∀ x, (Ty.set id true fs).Reads v x → ∃ xs, x = .struct xs ∧ fs.ReadsSet vs xs := by
    rintro x ⟨w', bs', vs', xs, hm', hc', hel', rfl, hr, _⟩
    rw [matches_unique hm' hm, hcon] at hc'
    simp only [Exec.ok.injEq] at hc'
    subst hc'
    rw [hel'.unique hel] at hr
    exact ⟨xs, rfl, hr⟩
  refine ⟨r, o', h2, ?_, ?_⟩
  · rw [h3]
    constructor
    · rintro ⟨x, hx⟩
      obtain ⟨xs, _, h⟩ := hback x hx
      exact ⟨xs, (key xs).mpr h⟩
    · rintro ⟨xs, hx⟩
      exact ⟨_, w, content, vs, xs, hm, hcon, hel, rfl, (key xs).mp hx, fun _ _ => .inl rfl⟩
  · intro hr
    obtain ⟨x, e, a1, a2⟩ := h4 hr
    obtain ⟨xs, rfl, h⟩ := hback x a2
    exact ⟨xs, e, a1, (key xs).mpr h⟩

example : succeeded ((Ty.set (univ 17) true sampleSet).decode (.struct [.none, .raw [10, 1, 0, 0, 0, 0, 0, 0, 0, 0]])
      [0x31, 6, 2, 1, 9, 10, 1, 3]) = true ∧
    succeeded ((Ty.set (univ 17) false sampleSet).decode (.struct [.none, .raw [10, 1, 0, 0, 0, 0, 0, 0, 0, 0]])
      [0x31, 6, 2, 1, 9, 10, 1, 3]) = false := by decide +kernel

/-! ## C43: CHOICE -/

/-- C43 (soundness, `_partial`: sane input, legal types): if an untagged CHOICE decodes, the alternative it has selected
is the one whose identifiers include that of the element. -/
theorem C43_choice_sound_partial (ids : List Id) (as : Alts) (hw : (Ty.choice (.untagged ids) as).WF)
    (hp : (Ty.choice (.untagged ids) as).Proper) (hg : (Ty.choice (.untagged ids) as).Guarded) {bs : Bytes} (hs : Sane bs)
    (hst : StartsElement bs) {o0 : Obj} (h0 : (Ty.choice (.untagged ids) as).Holds o0) {o' : Obj}
    (h : (Ty.choice (.untagged ids) as).decode o0 bs = .ok (true, o')) :
    ∃ v n a o i, BerView.parse bs = .ok v ∧ o' = .alt n o ∧ as.list[n]? = some a ∧ a.ty.Holds o ∧
      v.identifier = .ok i ∧ i ∈ a.ty.outer ∧ ∀ (m : Nat) (b : AltC), as.list[m]? = some b → i ∈ b.ty.outer → m = n := by
  obtain ⟨v, x, e, h1, h2, h3⟩ := C65_sound _ hw hp hg hs (fun _ => hst) h0 h
  obtain ⟨v', hv', hval⟩ := hst
  rw [h1] at hv'
  simp only [Exec.ok.injEq] at hv'
  subst hv'
  obtain ⟨n, o, x', e', rfl, rfl, hr, _⟩ := h2
  obtain ⟨n', y, hx, hy⟩ := h3
  simp only [Val.alt.injEq] at hx
  obtain ⟨rfl, rfl⟩ := hx
  rw [Alts.rep_iff] at hr
  obtain ⟨a, ha, hr⟩ := hr
  rw [Alts.reads_iff] at hy
  obtain ⟨a', ha', hy⟩ := hy
  rw [ha] at ha'
  simp only [Option.some.injEq] at ha'
  subst ha'
  obtain ⟨i, hi, hio⟩ := hasId_iff.mp (a.ty.reads_outer v _ hy hval)
  refine ⟨v, n, a, o, i, h1, rfl, ha, ⟨_, _, hr⟩, hi, hio, fun m b hb hib => ?_⟩
  exact as.distinct_outer hp.1 m n b a hb ha i hib hio

/-- C43 (completeness, `_partial`: sane input, alternatives with distinct tag numbers): if the element can be read as
alternative `n`, the CHOICE decodes and selects alternative `n`. -/
theorem C43_choice_complete_partial (ids : List Id) (as : Alts) (hw : (Ty.choice (.untagged ids) as).WF)
    (hu : (Ty.choice (.untagged ids) as).Unamb) (hg : (Ty.choice (.untagged ids) as).Guarded) {bs : Bytes} (hs : Sane bs)
    {v : BerView} (hv : BerView.parse bs = .ok v) (hval : v.valid = true) {n : Nat} {a : AltC} {x : Val}
    (ha : as.list[n]? = some a) (hx : a.ty.Reads v x) {o0 : Obj} (h0 : (Ty.choice (.untagged ids) as).Holds o0) :
    ∃ o, (Ty.choice (.untagged ids) as).decode o0 bs = .ok (true, .alt n o) := by
  obtain ⟨v', r, o', h1, h2, h3, _⟩ := C65_decode_iff_reads _ hw hu hg hs (fun _ => ⟨v, hv, hval⟩) h0
  rw [hv] at h1
  simp only [Exec.ok.injEq] at h1
  subst h1
  have hr : r = true := h3.mpr ⟨.alt n x, n, x, rfl, (Alts.reads_iff as n v x).mpr ⟨a, ha, hx⟩⟩
  subst hr
  obtain ⟨v', m, b, o, i, g1, rfl, g2, g3, g4, g5, g6⟩ :=
    C43_choice_sound_partial ids as hw (Ty.Unamb.proper _ hu) hg hs ⟨v, hv, hval⟩ h0 h2
  rw [hv] at g1
  simp only [Exec.ok.injEq] at g1
  subst g1
  obtain ⟨j, hj, hjo⟩ := hasId_iff.mp (a.ty.reads_outer v _ hx hval)
  rw [g4] at hj
  simp only [Exec.ok.injEq] at hj
  subst hj
  rw [g6 n a ha hjo]
  exact ⟨o, h2⟩

/-- C43 is violated: CHOICE { i INTEGER, b [2] BOOLEAN } hands the element `[2]` to the INTEGER, because classes are not
compared; CHOICE { s [APPLICATION 3] NULL } accepts nothing wrong, but this one refuses a correct element. -/
theorem C43_violated : clash.Proper ∧ (∃ v, BerView.parse [0x82, 1, 0xFF] = .ok v ∧ (Ty.leaf .bool (ctx 2)).Reads v (.content [0xFF])) ∧
    clash.decode (.alt 1 (.raw [0x82, 1, 0])) [0x82, 1, 0xFF] = .ok (false, .alt 0 (.raw [2, 1, 0, 0, 0, 0, 0, 0, 0, 0])) := by
  refine ⟨C33_violated.2.1, ⟨_, rfl, ?_⟩, rfl⟩
  exact ⟨_, [0xFF], [0xFF], ⟨rfl, rfl, rfl, rfl⟩, rfl, rfl, rfl, rfl, rfl⟩

end FastBer.Props
