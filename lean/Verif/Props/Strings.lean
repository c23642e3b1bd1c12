import Verif.Proofs.Container
/-! # Properties C24-C26: OCTET STRING and the string types -/
namespace FastBer.Props
open FastBer Spec
set_option maxRecDepth 100000

/-! ## C24: content is what was assigned -/

/-- C24.  From any state whatsoever, `assign(x)` gives an object whose `content()` is `x`, whose
`size()` is the length of `x`, and whose storage is the canonical element with that content. -/
theorem C24_assign (id : Ident) (hid : identOk id) (c : Cont) (x : Bytes)
    (hl : id.encodedLength x.length < 2 ^ 64) :
    (Cont.assignContent id c x).content = .ok x ∧ (Cont.assignContent id c x).size = x.length ∧
    (Cont.assignContent id c x).encodedLength = (tagged id .primitive x).length ∧
    ∀ buf, Cont.encode (Cont.assignContent id c x) buf =
      if (tagged id .primitive x).length ≤ buf.length
      then (⟨true, (tagged id .primitive x).length⟩,
        tagged id .primitive x ++ buf.drop (tagged id .primitive x).length)
      else (⟨false, 0⟩, buf) := by
  have h := assignContent_canon hid c x hl
  refine ⟨h.content, ?_, ?_, fun buf => ?_⟩
  · rw [h]; rfl
  · rw [h]; rfl
  · rw [h]
    simp only [Cont.encode]
    by_cases hf : (tagged id .primitive x).length ≤ buf.length
    · rw [if_neg (by omega), if_pos hf]; rfl
    · rw [if_pos (by omega), if_neg hf]; rfl

/-- C24.  Equality of two assigned strings (possibly of different types) is equality of contents. -/
theorem C24_equality (id id2 : Ident) (hid : identOk id) (hid2 : identOk id2) (c c2 : Cont) (x y : Bytes)
    (hl : id.encodedLength x.length < 2 ^ 64) (hl2 : id2.encodedLength y.length < 2 ^ 64) :
    Cont.eq (Cont.assignContent id c x) (Cont.assignContent id2 c2 y) = .ok (decide (x = y)) := by
  have h := (assignContent_canon hid c x hl).content
  have h2 := (assignContent_canon hid2 c2 y hl2).content
  simp only [Cont.eq, h, h2, Exec.ok_bind]
  by_cases e : x = y <;> simp [e]

/-- C24.  Encoding an assigned string and decoding the bytes (followed by anything) into any other
object of the type gives an object with the same content. -/
theorem C24_round_trip (id : Ident) (hid : identOk id) (c c0 : Cont) (x suffix : Bytes)
    (hl : id.encodedLength x.length < 2 ^ 64) :
    ∃ v c', BerView.parse ((Cont.assignContent id c x).data ++ suffix) = .ok v ∧
      Cont.decode id c0 v = .ok (true, c') ∧ c'.content = .ok x ∧ c' = Cont.assignContent id c x := by
  have h := assignContent_canon hid c x hl
  have hlen : (tagged id .primitive x).length < 2 ^ 64 := by rw [length_tagged hid _ _ hl]; exact hl
  rw [h]
  have hp := assign_tagged id hid .primitive x suffix 0 hlen
  obtain ⟨w, hw, hwc, hwl⟩ := matches_tagged id hid .primitive x suffix hlen
  refine ⟨_, ⟨tagged id .primitive x, x.length⟩, hp, ?_, ContCanon.content (id := id) rfl, rfl⟩
  obtain ⟨e1, e2, e3⟩ := taggedView_hdr_len id .primitive x suffix
  have hb : (taggedView id .primitive x suffix).ber = .ok (tagged id .primitive x) := by
    rw [BerView.ber, BerView.berLength, e1, u64_of_lt hlen, e3, if_pos (by simp)]
    simp
  simp [Cont.decode, hasCorrectHeader_true.mpr ⟨w, hw⟩, innerView_of_matches hw, hb, hwl]

def octet : Ident := .single ⟨.universal, 4⟩
def octetExplicit : Ident := .double ⟨.contextSpecific, 1⟩ ⟨.universal, 4⟩
example : identOk octet ∧ identOk octetExplicit := by
  refine ⟨⟨by decide, by decide⟩, ⟨by decide, by decide⟩, by decide, by decide⟩
example : (Cont.assignContent octetExplicit ⟨[1, 2, 3, 4, 5, 6, 7, 8, 9, 10], 3⟩ [0x41]).data
    = [0xA1, 3, 4, 1, 0x41] := by decide +kernel

/-! ## C25: resize -/

/-- C25 is false of the code: shrinking a 200 byte string to 100 bytes moves the content from
beyond the already shrunk vector. -/
theorem C25_violated : ∃ c : Cont, c = Cont.assignContent octet (Cont.default octet) (List.replicate 200 7) ∧
    Cont.resizeContent octet c 100 = .ub := ⟨_, rfl, by decide +kernel⟩

/-- C25 is false of the code in a second way: growth is not zero-filled when the stored element was
decoded from a non-minimal length form.  The third byte should be 0. -/
theorem C25_violated_growth : ∃ v c c', BerView.parse [4, 0x81, 2, 0x41, 0x42] = .ok v ∧
    Cont.decode octet (Cont.default octet) v = .ok (true, c) ∧ c.content = .ok [0x41, 0x42] ∧
    Cont.resizeContent octet c 3 = .ok c' ∧ c'.content = .ok [0x41, 0x42, 0x42] :=
  ⟨⟨true, [4, 0x81, 2, 0x41, 0x42], 4, 3, 2⟩, ⟨[4, 0x81, 2, 0x41, 0x42], 2⟩, ⟨[4, 3, 0x41, 0x42, 0x42], 3⟩,
    by decide +kernel, by decide +kernel, by decide +kernel, by decide +kernel, by decide +kernel⟩

/-- What `resize(n)` should produce. -/
def resized (x : Bytes) (n : Nat) : Bytes := x.take n ++ List.replicate (n - x.length) 0

/-- C25 (partial).  On an object whose content was assigned: `resize(n)` is undefined exactly when it
shrinks the string across a change of the header size; otherwise it keeps the first `min(n, size)`
bytes, zero-fills, and leaves the canonical element of that content.  Missing: the shrinking case
(undefined behaviour) and objects decoded from non-minimal encodings. -/
theorem C25_resize_partial (id : Ident) (hid : identOk id) (c : Cont) (x : Bytes) (n : Nat)
    (hx : id.encodedLength x.length < 2 ^ 64) (hn : id.encodedLength n < 2 ^ 64) :
    Cont.resizeContent id (Cont.assignContent id c x) n =
      if n < x.length ∧ id.headerLength n < id.headerLength x.length then .ub
      else .ok ⟨tagged id .primitive (resized x n), n⟩ := by
  have h := assignContent_canon hid c x hx
  have hlen := length_tagged hid .primitive x hx
  rw [Ident.encodedLength_eq] at hlen
  rw [h]
  by_cases hbad : n < x.length ∧ id.headerLength n < id.headerLength x.length
  · rw [if_pos hbad]
    simp only [Cont.resizeContent]
    rw [if_neg (by omega), if_neg]
    rw [length_vecResize, hlen]
    omega
  · rw [if_neg hbad]
    have hmono : x.length ≤ n → id.headerLength x.length ≤ id.headerLength n := by
      intro hle
      have h1 : ∀ a b, a ≤ b → encodedLengthLength a ≤ encodedLengthLength b := fun _ _ => encodedLengthLength_mono
      cases id with
      | single i => have := h1 _ _ hle; simp only [Ident.headerLength, Id.headerLength]; omega
      | double o i =>
        have h2 := h1 _ _ hle
        have h3 : i.encodedLength x.length ≤ i.encodedLength n := by
          simp only [Id.encodedLength, Id.headerLength]; omega
        have := h1 _ _ h3
        simp only [Ident.headerLength, Id.headerLength]; omega
    have hle : id.headerLength x.length ≤ id.headerLength n := by
      rcases Nat.lt_or_ge n x.length with h1 | h1
      · omega
      · exact hmono h1
    obtain ⟨y, c', e, hc', hyl, hy1, hy2⟩ := resizeContent_ok hid ⟨tagged id .primitive x, x.length⟩ n hn
      (by simp only; omega) (by simp only; omega)
    simp only at hy1 hy2
    have hdrop : (tagged id .primitive x).drop ((tagged id .primitive x).length - x.length) = x := by
      rw [hlen, Nat.add_sub_cancel, tagged_eq, ← length_identHeader hid .primitive x.length hx, List.drop_left]
    have hy2' := hy2 (by omega)
    rw [hdrop] at hy1
    rw [e, hc']
    have : y = resized x n := by
      rw [← List.take_append_drop (min x.length n) y, hy1, hy2', resized]
      congr 1
      rcases Nat.lt_or_ge n x.length with h1 | h1
      · rw [Nat.min_eq_right (by omega)]
      · rw [Nat.min_eq_left h1, List.take_length, List.take_of_length_le h1]
    rw [← this, hyl]

example : identOk octet ∧ octet.encodedLength 3 < 2 ^ 64 ∧
    Cont.resizeContent octet (Cont.assignContent octet (Cont.default octet) [1, 2, 3]) 5
      = .ok ⟨[4, 5, 1, 2, 3, 0, 0], 5⟩ := by
  refine ⟨⟨by decide, by decide⟩, by decide, by decide +kernel⟩

/-! ## C26: container history -/

/-- States of a string object reachable by any history of construction, assignment, copy and move
assignment (also from other identifiers), `decode` (successful or not) and `resize`. -/
inductive StrReach : Ident → Cont → Prop
  | default {id} : StrReach id (Cont.default id)
  | assign {id c x} : StrReach id c → id.encodedLength x.length < 2 ^ 64 → StrReach id (Cont.assignContent id c x)
  | copy {id c src} : StrReach id c → StrReach id src → StrReach id (Cont.copyFrom c src)
  | copyOther {id id2 c src c'} : identOk id2 → StrReach id c → StrReach id2 src →
      id.encodedLength src.len < 2 ^ 64 → Cont.assignFrom id c src = .ok c' → StrReach id c'
  | decode {id c input v ok c'} : StrReach id c → Sane input → BerView.parse input = .ok v →
      Cont.decode id c v = .ok (ok, c') → StrReach id c'
  | resize {id c n c'} : StrReach id c → id.encodedLength n < 2 ^ 64 → Cont.resizeContent id c n = .ok c' →
      StrReach id c'

theorem strReach_wf {id : Ident} (hid : identOk id) {c : Cont} (h : StrReach id c) : ContWf id c := by
  induction h with
  | @default id =>
    refine (default_canon hid).wf hid ?_
    have := Ident.encodedLength_lt id 0
    rw [length_tagged hid _ _ (by simp only [List.length_nil]; omega)]; simp only [List.length_nil]; omega
  | @assign id c x _ hl ih =>
    refine (assignContent_canon hid c x hl).wf hid ?_
    rw [length_tagged hid _ _ hl]; exact hl
  | copy _ _ _ ih => exact ih hid
  | @copyOther id id2 c src c' hid2 _ _ hl he _ ih =>
    have hc := (ih hid2).content
    simp only [Cont.assignFrom, hc, Exec.ok_bind, Exec.ok.injEq] at he
    subst he
    have hlen : (src.data.drop (src.data.length - src.len)).length = src.len := by
      obtain ⟨v, w, _, _, _, _, h5, h6⟩ := ih hid2
      rw [List.length_drop]; omega
    rw [← hlen] at hl
    refine (assignContent_canon hid c _ hl).wf hid ?_
    rw [length_tagged hid _ _ hl]; exact hl
  | @decode id c input v ok c' _ hs hp he ih =>
    have hsv : SaneView v := by
      obtain ⟨v', h1, h2, _⟩ := hs.assign 0
      rw [BerView.parse, h1] at hp
      simp only [Exec.ok.injEq] at hp
      subst hp; exact h2
    rcases Cont.decode_cases id c v hsv with ⟨w, hw, e⟩ | ⟨_, e⟩
    · rw [he] at e
      simp only [Exec.ok.injEq, Prod.mk.injEq] at e
      rw [e.2]
      exact decode_wf hsv hw ⟨_, _, hp⟩
    · rw [he] at e
      simp only [Exec.ok.injEq, Prod.mk.injEq] at e
      rw [e.2]; exact ih hid
  | @resize id c n c' _ hn he ih =>
    obtain ⟨v, w, _, _, _, _, h5, h6⟩ := ih hid
    have hle : c.len ≤ c.data.length := by omega
    by_cases hs : c.data.length - c.len + min c.len n ≤ id.headerLength n + n
    · obtain ⟨x, c2, e, hc, hxl, _⟩ := resizeContent_ok hid c n hn hle hs
      rw [he] at e
      simp only [Exec.ok.injEq] at e
      subst e
      rw [← hxl] at hn
      refine hc.wf hid ?_
      rw [length_tagged hid _ _ hn]; exact hn
    · simp only [Cont.resizeContent] at he
      rw [if_neg (by omega), if_neg (by rw [length_vecResize]; omega)] at he
      cases he

/-- C26 (partial: decoded bytes must be `Sane`).  After any history the storage is exactly one BER element that carries the type's
identifier(s) and primitive form, and `content()` is a range of the storage of `size()` bytes. -/
theorem C26_container_history_partial (id : Ident) (hid : identOk id) (c : Cont) (h : StrReach id c) :
    (∃ v w, BerView.parse c.data = .ok v ∧ v.hdr + v.len = c.data.length ∧ Matches v id .primitive w ∧
      c.size = w.len) ∧
    ∃ x, c.content = .ok x ∧ x.length = c.size ∧ x <:+ c.data := by
  have hwf := strReach_wf hid h
  have hc := hwf.content
  obtain ⟨v, w, h1, h2, h3, h4, h5, h6⟩ := hwf
  refine ⟨⟨v, w, h1, h3, h2, h5⟩, _, hc, ?_, List.drop_suffix _ _⟩
  rw [List.length_drop, Cont.size]; omega

/-- C26, content: for an implicitly tagged (single identifier) type `content()` is the content of the
stored element after any history. -/
theorem C26_content_single (i : Id) (hid : idOk i) (c : Cont) (h : StrReach (.single i) c) :
    ∃ v x, BerView.parse c.data = .ok v ∧ v.content = .ok x ∧ c.content = .ok x := by
  have hwf := strReach_wf (id := .single i) hid h
  have hc := hwf.content
  obtain ⟨v, w, h1, ⟨hv, _, _, rfl⟩, h3, h4, h5, h6⟩ := hwf
  have hm := (assign_valid h1 hv).1
  refine ⟨w, _, h1, ?_, hc⟩
  rw [BerView.content, hm, if_pos (by omega), h5,
    show c.data.length - w.len = w.hdr by omega, List.take_of_length_le (by rw [List.length_drop]; omega)]

/-- For an explicitly tagged type the same is false of the code: bytes behind the inner element
(accepted by `decode`) are returned instead of the content. -/
theorem C26_content_double_violated : ∃ v w c, BerView.parse [0xA1, 5, 4, 1, 0x41, 5, 0] = .ok v ∧
    Cont.decode octetExplicit (Cont.default octetExplicit) v = .ok (true, c) ∧
    innerView v octetExplicit = .ok w ∧ w.content = .ok [0x41] ∧ c.content = .ok [0] :=
  ⟨⟨true, [0xA1, 5, 4, 1, 0x41, 5, 0], 1, 2, 5⟩, ⟨true, [4, 1, 0x41, 5, 0], 4, 2, 1⟩,
    ⟨[0xA1, 5, 4, 1, 0x41, 5, 0], 1⟩, by decide +kernel, by decide +kernel, by decide +kernel,
    by decide +kernel, by decide +kernel⟩

/-- C26 without the restriction to sane input is false of the code: a header announcing 2^64-10 bytes
makes `decode` store nothing and record a huge length, so `content()` is outside the storage. -/
theorem C26_violated : ∃ v c, BerView.parse [4, 0x88, 0xFF, 0xFF, 0xFF, 0xFF, 0xFF, 0xFF, 0xFF, 0xF6] = .ok v ∧
    Cont.decode octet (Cont.default octet) v = .ok (true, c) ∧ c.data = [] ∧ c.content = .ub :=
  ⟨⟨true, [4, 0x88, 0xFF, 0xFF, 0xFF, 0xFF, 0xFF, 0xFF, 0xFF, 0xF6], 4, 10, 2 ^ 64 - 10⟩, ⟨[], 2 ^ 64 - 10⟩,
    by decide +kernel, by decide +kernel, rfl, by decide +kernel⟩

/-- The moved-from object is not in a valid state: unless it was empty, its `content()` lies outside
its storage (it can still be assigned to, by C24). -/
theorem C26_moved_from_violated (c : Cont) (h : 0 < c.len) : (Cont.movedFrom c).content = .ub := by
  simp [Cont.content, Cont.movedFrom]; omega

example : StrReach octetExplicit (Cont.assignContent octetExplicit (Cont.default octetExplicit) [1, 2]) :=
  .assign .default (by decide)

end FastBer.Props
