import Verif.Proofs.Packet
import Verif.Props.Strings
/-! # Property C84: owned packets (`BerContainer`) -/
namespace FastBer.Props
open FastBer Spec

/-! ## Construction and assignment -/

/-- A default constructed container holds the packet `00 00`. -/
theorem C84_default : ShowsElement Packet.default .universal .primitive 0 [] :=
  Packet.default_canon.shows (by decide)

/-- Whatever the container held before, `assign_content(x)` makes it an element with tag 0 and content `x`. -/
theorem C84_assign (p : Packet) (x : Bytes) (hl : (element .universal .primitive 0 x).length < 2 ^ 64) :
    ShowsElement (p.assignContent x) .universal .primitive 0 x :=
  (Packet.assignContent_canon p x (by rw [length_element] at hl; omega)).shows hl

/-- Whatever the container held before, `assign_content(construction, class, tag, x)` makes it the element with that identifier and that
content; so does construction from them. -/
theorem C84_assign_element (p : Packet) (c : Class) (k : Construction) (t : Nat) (x : Bytes) (ht : t < 2 ^ 63)
    (hl : (element c k t x).length < 2 ^ 64) :
    (∃ q, p.assignElement k c t x = .ok q ∧ ShowsElement q c k t x) ∧ ∃ q, Packet.ofElement k c t x = .ok q ∧ ShowsElement q c k t x := by
  have hx : x.length < 2 ^ 64 := by rw [length_element] at hl; omega
  obtain ⟨q, h1, h2⟩ := Packet.assignElement_canon p k c t x ht hx
  obtain ⟨q', h3, h4⟩ := Packet.assignElement_canon .blank k c t x ht hx
  exact ⟨⟨q, h1, h2.shows hl⟩, q', h3, h4.shows hl⟩

/-! ## Copying from a view -/

theorem packet_shows_view (v : BerView) (c : Class) (k : Construction) (x : Bytes)
    (hw : v.hdr + v.len < 2 ^ 64) (hb : v.hdr + v.len ≤ v.mem.length) (hpos : 0 < v.hdr) (hc : v.cls = .ok c) (hk : v.construction = .ok k) (hx : v.content = .ok x) :
    Shows ⟨v.mem.take (v.hdr + v.len), .own v.tag v.hdr v.len⟩ c k v.tag x (v.mem.take (v.hdr + v.len)) := by
  have hlen : (v.mem.take (v.hdr + v.len)).length = v.hdr + v.len := by rw [List.length_take]; omega
  rw [BerView.content, if_pos hb, Exec.ok.injEq] at hx
  have hview : Packet.view ⟨v.mem.take (v.hdr + v.len), .own v.tag v.hdr v.len⟩ = ⟨true, v.mem.take (v.hdr + v.len), v.tag, v.hdr, v.len⟩ := rfl
  have hbl : BerView.berLength ⟨true, v.mem.take (v.hdr + v.len), v.tag, v.hdr, v.len⟩ = v.hdr + v.len := u64_of_lt hw
  have hber : BerView.ber ⟨true, v.mem.take (v.hdr + v.len), v.tag, v.hdr, v.len⟩ = .ok (v.mem.take (v.hdr + v.len)) := by
    rw [BerView.ber, hbl, if_pos (by rw [hlen]; exact Nat.le_refl _), List.take_take, Nat.min_self]
  have hmem : ∃ b r s, v.mem = b :: r ∧ v.mem.take (v.hdr + v.len) = b :: s := by
    cases hm : v.mem with
    | nil => rw [hm] at hb; simp at hb; omega
    | cons b r =>
      obtain ⟨j, hj⟩ : ∃ j, v.hdr + v.len = j + 1 := ⟨v.hdr + v.len - 1, by omega⟩
      exact ⟨b, r, r.take j, rfl, by rw [hj, List.take_succ_cons]⟩
  obtain ⟨b, r, s, hm, hm'⟩ := hmem
  refine ⟨rfl, ?_, ?_, rfl, ?_, ?_, hber, by rw [hlen]; exact hbl, fun buf => ?_⟩
  · rw [hview, BerView.cls, hm']; rw [BerView.cls, hm] at hc; exact hc
  · rw [hview, BerView.construction, hm']; rw [BerView.construction, hm] at hk; exact hk
  · rw [hview, BerView.content, if_pos (by rw [hlen]; exact Nat.le_refl _), ← hx, List.drop_take, List.take_take]
    congr 2; simp only; omega
  · rw [← hx, List.length_take, List.length_drop]
    show v.len = _
    omega
  · rw [Packet.encode, hview, BerView.encode, hbl, hber, hlen]
    by_cases hf : v.hdr + v.len ≤ buf.length
    · rw [if_neg (by omega), if_pos hf]
      simp only [Exec.ok_bind, writePrefix, hlen]
    · rw [if_pos (by omega), if_neg hf]; rfl

/-- Decoding a view that was obtained by parsing octets: whatever the container held before, it shows the class, construction, tag and
content of the view, and holds exactly the octets of the element — not the ones behind it.  Views of elements with a length that overflows
`size_t` are excluded (C07). -/
theorem C84_decode_partial (p : Packet) (input : Bytes) (v : BerView) (hp : BerView.parse input = .ok v) (hv : v.valid = true)
    (hw : v.hdr + v.len < 2 ^ 64) :
    ∃ q c k x, p.decode v = .ok (true, q) ∧ Packet.ofView v = .ok q ∧ v.cls = .ok c ∧ v.construction = .ok k ∧ v.content = .ok x ∧
      Shows q c k v.tag x (input.take (v.hdr + v.len)) := by
  obtain ⟨hm, h2, _, _, hb, _⟩ := assign_valid hp hv
  rw [BerView.berLength, u64_of_lt hw] at hb
  have hb' : v.hdr + v.len ≤ v.mem.length := by rw [hm]; exact hb
  obtain ⟨b, r, hbr⟩ : ∃ b r, v.mem = b :: r := by
    cases hmm : v.mem with
    | nil => rw [hmm] at hb'; simp at hb'; omega
    | cons b r => exact ⟨b, r, rfl⟩
  refine ⟨_, getClass b, getConstruction b, (v.mem.drop v.hdr).take v.len, Packet.decode_valid p v hv hb' hw, ?_, ?_, ?_, ?_, ?_⟩
  · unfold Packet.ofView
    rw [Packet.decode_valid _ v hv hb' hw]
    rfl
  · rw [BerView.cls, hbr]
  · rw [BerView.construction, hbr]
  · rw [BerView.content, if_pos hb']
  · rw [← hm]
    exact packet_shows_view v _ _ _ hw hb' (by omega) (by rw [BerView.cls, hbr]) (by rw [BerView.construction, hbr])
      (by rw [BerView.content, if_pos hb'])

/-- Decoding an invalid view fails and leaves an invalid container; construction from one gives an invalid container. -/
theorem C84_decode_invalid (p : Packet) (v : BerView) (hv : v.valid = false) :
    (∃ q, p.decode v = .ok (false, q) ∧ q.isValid = false) ∧ ∃ q, Packet.ofView v = .ok q ∧ q.isValid = false := by
  obtain ⟨t, h⟩ := Packet.decode_invalid p v hv
  obtain ⟨t', h'⟩ := Packet.decode_invalid .blank v hv
  refine ⟨⟨_, h, rfl⟩, ⟨[], .null t'⟩, ?_, rfl⟩
  unfold Packet.ofView
  rw [h']
  rfl

/-- Construction from the octets of a packet, followed by anything: the container holds the packet. -/
theorem C84_from_packet (c : Class) (k : Construction) (t : Nat) (x suffix : Bytes) (ht : t < 2 ^ 63)
    (hl : (element c k t x).length < 2 ^ 64) :
    ∃ q, Packet.ofSpan (element c k t x ++ suffix) true = .ok q ∧ ShowsElement q c k t x := by
  have hp := assign_element c k t x suffix 0 ht hl
  have hL := length_element c k t x
  have hd : ∀ p : Packet, p.decode (elementView c k t x suffix) =
      .ok (true, ⟨element c k t x, .own t (header c k t x.length).length x.length⟩) := by
    intro p
    rw [Packet.decode_valid _ _ rfl (by show _ ≤ (element c k t x ++ suffix).length; simp only [List.length_append, elementView]; omega)
      (by show _ + _ < _; simp only [elementView]; omega)]
    simp only [elementView, ← hL, List.take_left]
  refine ⟨_, ?_, Packet.Canon.shows (p := ⟨element c k t x, .own t (header c k t x.length).length x.length⟩) rfl hl⟩
  unfold Packet.ofSpan
  rw [show BerView.parse (element c k t x ++ suffix) = .ok (elementView c k t x suffix) from hp]
  simp only [Exec.ok_bind, if_true, hd]

/-- A packet that was encoded and is parsed and decoded again, into any container, is the same packet. -/
theorem C84_round_trip (p p0 : Packet) (c : Class) (k : Construction) (t : Nat) (x suffix : Bytes) (ht : t < 2 ^ 63)
    (hl : (element c k t x).length < 2 ^ 64) (h : ShowsElement p c k t x) (buf : Bytes) (hbuf : (element c k t x).length ≤ buf.length) :
    ∃ n out v q, p.encode buf = .ok (⟨true, n⟩, out) ∧ BerView.parse (out.take n ++ suffix) = .ok v ∧ p0.decode v = .ok (true, q) ∧
      ShowsElement q c k t x := by
  refine ⟨_, _, elementView c k t x suffix, ⟨element c k t x, .own t (header c k t x.length).length x.length⟩,
    by rw [h.encode, if_pos hbuf], ?_, ?_, Packet.Canon.shows rfl hl⟩
  · rw [List.take_left]; exact assign_element c k t x suffix 0 ht hl
  · have hL := length_element c k t x
    rw [Packet.decode_valid _ _ rfl (by show _ ≤ (element c k t x ++ suffix).length; simp only [List.length_append, elementView]; omega)
      (by show _ + _ < _; simp only [elementView]; omega)]
    simp only [elementView, ← hL, List.take_left]

/-! ## Resizing -/

/-- C84, resizing: `resize_content(n)` on a container that was assigned an element keeps the identifier and the first `min(n, size)` bytes
of the content and fills with zeros — unless it shrinks the content so far that the header gets shorter: then bytes are read behind the end
of the (already shrunk) vector. -/
theorem C84_resize_partial (p : Packet) (c : Class) (k : Construction) (t : Nat) (x : Bytes) (n : Nat) (ht : t < 2 ^ 63)
    (hl : (element c k t x).length < 2 ^ 64) (hn : (element c k t (resized x n)).length < 2 ^ 64) :
    ∃ q, p.assignElement k c t x = .ok q ∧
      (if n < x.length ∧ (lengthOctets n).length < (lengthOctets x.length).length then q.resizeContent n = .ub
       else ∃ r, q.resizeContent n = .ok r ∧ ShowsElement r c k t (resized x n)) := by
  have hL := length_element c k t x
  have hrl : (resized x n).length = n := by rw [resized, List.length_append, List.length_take, List.length_replicate]; omega
  have hN := length_element c k t (resized x n)
  rw [hrl] at hN
  have hx : x.length < 2 ^ 64 := by omega
  have hn' : n < 2 ^ 64 := by omega
  obtain ⟨q, h1, h2⟩ := Packet.assignElement_canon p k c t x ht hx
  refine ⟨q, h1, ?_⟩
  rw [h2]
  have hid := length_identifierOctets c k t ht
  have hll := length_lengthOctets n hn'
  have hlx := length_lengthOctets x.length hx
  have hh : (header c k t x.length).length = encodedTagLength t + (lengthOctets x.length).length := by rw [header, List.length_append, hid]
  have hmono : x.length ≤ n → (lengthOctets x.length).length ≤ (lengthOctets n).length := by
    intro h; rw [hll, hlx]; exact encodedLengthLength_mono h
  by_cases hbad : n < x.length ∧ (lengthOctets n).length < (lengthOctets x.length).length
  · rw [if_pos hbad]
    refine Packet.resize_ub rfl hn' ?_
    rw [← hll, hh]; omega
  · rw [if_neg hbad]
    have htake : (element c k t x).take (encodedTagLength t) = identifierOctets c k t := by
      rw [element, header, List.append_assoc, List.take_left' hid]
    have hle : (lengthOctets x.length).length ≤ (lengthOctets n).length := by
      rcases Nat.lt_or_ge n x.length with h | h
      · omega
      · exact hmono h
    obtain ⟨y, e, hy, hy1, hy2⟩ := Packet.resize_ok (p := ⟨element c k t x, .own t (header c k t x.length).length x.length⟩) (n := n) rfl
      hL.symm (by omega) hn'
      (fun s => by rw [htake, extractTag_identifierOctets c k t s _ ht, hid]) (by rw [← hll, hh]; omega)
    refine ⟨_, e, Packet.Canon.shows ?_ hn⟩
    have hyx : y = resized x n := by
      have hd : (element c k t x).drop (header c k t x.length).length = x := by rw [element, List.drop_left]
      rw [← List.take_append_drop (min x.length n) y, hy1, hy2 (by omega), resized]
      simp only [hd]
      congr 1
      rcases Nat.lt_or_ge n x.length with h3 | h3
      · rw [Nat.min_eq_right (by omega)]
      · rw [Nat.min_eq_left h3, List.take_length, List.take_of_length_le h3]
    rw [htake, hyx]
    simp only [Packet.Canon, element, header, hrl, List.length_append, hid, List.append_assoc]

/-! ## Copying and moving -/

/-- Copy construction, copy assignment and move assignment give a container that shows what the other one does. -/
theorem C84_copy (p q : Packet) (c : Class) (k : Construction) (t : Int) (x octets : Bytes) (hwf : p.Wf) (h : Shows p c k t x octets) :
    (∃ r, Packet.ofView p.view = .ok r ∧ Shows r c k t x octets) ∧ Shows (q.copyFrom p) c k t x octets ∧ Shows (q.moveFrom p) c k t x octets := by
  rcases hwf with ⟨t0, rfl⟩ | ⟨t0, h0, l0, e, hp, hlen, hlt⟩
  · have := h.valid; cases this
  · have hv := Packet.view_own e
    have hsame : (⟨p.data, .own p.view.tag p.view.hdr p.view.len⟩ : Packet) = p := by
      rw [hv]
      cases p with
      | mk d a => simp only at e; subst e; rfl
    refine ⟨⟨p, ?_, h⟩, ?_, ?_⟩
    · unfold Packet.ofView
      rw [Packet.decode_valid _ _ (by rw [hv]) (by rw [hv]; exact Nat.le_of_eq hlen) (by rw [hv]; simp only; omega)]
      simp only [Exec.ok_bind]
      conv => rhs; rw [← hsame]
      congr 2
      rw [hv]
      simp only [hlen, List.take_length]
    · rw [Packet.copyFrom, hsame]; exact h
    · rw [Packet.moveFrom, hsame]; exact h

/-- States of a container reachable by any history of construction, assignment, decoding (successful or not), resizing, copying and
moving in which resizing is done only when the identifier octets are the shortest possible ones, invalid containers are neither resized nor
assigned from, and moved-from containers are only assigned to. -/
inductive PacketReach : Packet → Prop
  | default : PacketReach .default
  | assign {p x} : (element .universal .primitive 0 x).length < 2 ^ 64 → PacketReach (Packet.assignContent p x)
  | assignElement {p q k c t x} : t < 2 ^ 63 → (element c k t x).length < 2 ^ 64 → Packet.assignElement p k c (t : Nat) x = .ok q →
      PacketReach q
  | decode {p input v r q} : BerView.parse input = .ok v → v.hdr + v.len < 2 ^ 64 → Packet.decode p v = .ok (r, q) → PacketReach q
  | copy {p q} : PacketReach p → p.isValid = true → PacketReach (Packet.copyFrom q p)
  | copyConstruct {p q} : PacketReach p → Packet.ofView p.view = .ok q → PacketReach q
  | move {p q} : PacketReach p → p.isValid = true → PacketReach (Packet.moveFrom q p)
  | resize {p q n c k t rest} : PacketReach p → p.isValid = true → p.data = identifierOctets c k t ++ rest → t < 2 ^ 63 →
      encodedTagLength t + (lengthOctets n).length + n < 2 ^ 64 → Packet.resizeContent p n = .ok q → PacketReach q

/-- C84, histories: whatever has been done to a container, it is invalid or its accessors are those of the single element its octets are. -/
theorem C84_history_partial (p : Packet) (h : PacketReach p) :
    p.isValid = false ∨ ∃ v c k x, BerView.parse p.data = .ok v ∧ v.valid = true ∧ v.cls = .ok c ∧ v.construction = .ok k ∧ v.content = .ok x ∧
      Shows p c k v.tag x p.data := by
  have hwf : p.Wf := by
    induction h with
    | default => exact Packet.default_canon.wf (by decide) (by decide)
    | assign hl => exact (Packet.assignContent_canon _ _ (by rw [length_element] at hl; omega)).wf (by decide) hl
    | @assignElement p q k c t x ht hl he =>
      obtain ⟨q', h1, h2⟩ := Packet.assignElement_canon p k c t x ht (by rw [length_element] at hl; omega)
      rw [he] at h1
      cases h1
      exact h2.wf ht hl
    | @decode p input v r q hp hw he =>
      cases hv : v.valid with
      | false =>
        obtain ⟨t, h1⟩ := Packet.decode_invalid p v hv
        rw [he] at h1
        cases h1
        exact .inl ⟨t, rfl⟩
      | true =>
        obtain ⟨hm, h2, _, _, hb, _⟩ := assign_valid hp hv
        rw [BerView.berLength, u64_of_lt hw] at hb
        rw [Packet.decode_valid _ _ hv (by rw [hm]; exact hb) hw] at he
        cases he
        have hlen : (v.mem.take (v.hdr + v.len)).length = v.hdr + v.len := by rw [List.length_take, hm]; omega
        refine .inr ⟨_, _, _, rfl, ?_, hlen.symm, by rw [hlen]; exact hw⟩
        rw [hm]
        have := assign_exact hp hv hw 0
        rw [BerView.parse, this]
        cases v
        simp only at hv
        subst hv
        rfl
    | @copy p q _ hv ih =>
      rcases ih with ⟨t, rfl⟩ | ⟨t, h0, l0, e, hp, hlen, hlt⟩
      · cases hv
      · have : Packet.copyFrom q p = p := by
          rw [Packet.copyFrom, Packet.view_own e]
          cases p; simp only at e; subst e; rfl
        rw [this]
        exact .inr ⟨t, h0, l0, e, hp, hlen, hlt⟩
    | @move p q _ hv ih =>
      rcases ih with ⟨t, rfl⟩ | ⟨t, h0, l0, e, hp, hlen, hlt⟩
      · cases hv
      · have : Packet.moveFrom q p = p := by
          rw [Packet.moveFrom, Packet.view_own e]
          cases p; simp only at e; subst e; rfl
        rw [this]
        exact .inr ⟨t, h0, l0, e, hp, hlen, hlt⟩
    | @copyConstruct p q _ he ih =>
      rcases ih with ⟨t, rfl⟩ | ⟨t, h0, l0, e, hp, hlen, hlt⟩
      · obtain ⟨t', h1⟩ := Packet.decode_invalid .blank (Packet.view ⟨[], .null t⟩) rfl
        unfold Packet.ofView at he
        rw [h1] at he
        cases he
        exact .inl ⟨t', rfl⟩
      · have hv := Packet.view_own e
        unfold Packet.ofView at he
        rw [Packet.decode_valid _ _ (by rw [hv]) (by rw [hv]; exact Nat.le_of_eq hlen) (by rw [hv]; simp only; omega)] at he
        cases he
        have : (⟨p.view.mem.take (p.view.hdr + p.view.len), .own p.view.tag p.view.hdr p.view.len⟩ : Packet) = p := by
          rw [hv]
          simp only [hlen, List.take_length]
          cases p; simp only at e; subst e; rfl
        rw [this]
        exact .inr ⟨t, h0, l0, e, hp, hlen, hlt⟩
    | @resize p q n c k t rest _ hv hd ht hn he ih =>
      rcases ih with ⟨t', rfl⟩ | ⟨t', h0, l0, e, hp, hlen, hlt⟩
      · cases hv
      · have hid := length_identifierOctets c k t ht
        have hview := Packet.view_own e
        obtain ⟨_, h2, hh, _, _, tagLen, lenLen, e1, e2, e3, p1, p2⟩ := assign_valid hp (by rw [hview])
        rw [hview] at e1 e3 hh
        simp only at e1 e3 hh
        rw [hd, extractTag_identifierOctets c k t rest _ ht] at e1
        simp only [Exec.ok.injEq, Prod.mk.injEq] at e1
        obtain ⟨r1, r2⟩ := e1
        subst r2
        rw [hid] at r1
        have hll := length_lengthOctets n (by omega)
        by_cases hs : h0 + min l0 n ≤ encodedTagLength t + encodedLengthLength n + n
        · have htake : p.data.take (encodedTagLength t) = identifierOctets c k t := by rw [hd, List.take_left' hid]
          obtain ⟨y, e', hy, _⟩ := Packet.resize_ok (n := n) e hlen (by omega) (by omega)
            (fun s => by rw [htake, extractTag_identifierOctets c k t s _ ht, hid]) hs
          rw [he] at e'
          cases e'
          refine (Packet.Canon.wf (c := c) (k := k) (t := t) (x := y) ?_ ht ?_)
          · simp only [Packet.Canon, htake, element, header, hy, List.length_append, hid, List.append_assoc]
          · rw [length_element, header, List.length_append, hid, hy]; omega
        · rw [Packet.resize_ub e (by omega) hs] at he
          cases he
  rcases hwf with ⟨t, rfl⟩ | ⟨t, h0, l0, e, hp, hlen, hlt⟩
  · exact .inl rfl
  · right
    have hv := Packet.view_own e
    obtain ⟨_, h2, hh, _⟩ := assign_valid hp (by rw [hv])
    have hpd : p = ⟨p.view.mem.take (p.view.hdr + p.view.len), .own p.view.tag p.view.hdr p.view.len⟩ := by
      rw [hv]
      simp only [hlen, List.take_length]
      cases p; simp only at e; subst e; rfl
    obtain ⟨b, r, hbr⟩ : ∃ b r, p.view.mem = b :: r := by
      rw [hv] at h2 hh ⊢
      cases hm : p.data with
      | nil => rw [hm] at hh; simp at hh h2; omega
      | cons b r => exact ⟨b, r, rfl⟩
    have hc : p.view.cls = .ok (getClass b) := by rw [BerView.cls, hbr]
    have hk : p.view.construction = .ok (getConstruction b) := by rw [BerView.construction, hbr]
    have hin : p.view.hdr + p.view.len ≤ p.view.mem.length := by rw [hv]; exact Nat.le_of_eq hlen
    have hx : p.view.content = .ok ((p.view.mem.drop p.view.hdr).take p.view.len) := by rw [BerView.content, if_pos hin]
    refine ⟨p.view, _, _, _, hp, by rw [hv], hc, hk, hx, ?_⟩
    have hs := packet_shows_view p.view _ _ _ (by rw [hv]; simp only; omega) hin (by omega) hc hk hx
    rw [← hpd] at hs
    have hd : p.view.mem.take (p.view.hdr + p.view.len) = p.data := by rw [hv]; simp only [hlen, List.take_length]
    rw [hd] at hs
    exact hs

/-! ## What is wrong -/

/-- Shrinking the content so that the header gets shorter reads behind the vector (200 bytes to 100). -/
theorem C84_violated_shrink : ∃ p, Packet.ofElement .primitive .universal 4 (List.replicate 200 7) = .ok p ∧ p.resizeContent 100 = .ub := by
  refine ⟨⟨[4, 0x81, 200] ++ List.replicate 200 7, .own 4 3 200⟩, by decide +kernel, by decide +kernel⟩

/-- Resizing a packet whose tag number is in the long form although it is below 31 (`1F 04 01 41`, accepted by `decode`) overwrites the second
identifier octet: the container now shows tag 2, and its octets are not an element. -/
theorem C84_violated_long_tag : ∃ v p q, BerView.parse [0x1F, 0x04, 0x01, 0x41] = .ok v ∧ Packet.ofView v = .ok p ∧ p.view.tag = 4 ∧
    p.view.content = .ok [0x41] ∧ p.resizeContent 2 = .ok q ∧ q.view.tag = 2 ∧ q.view.ber = .ok [0x1F, 0x02, 0x41, 0x41] ∧
    ∃ w, BerView.parse [0x1F, 0x02, 0x41, 0x41] = .ok w ∧ w.valid = false :=
  ⟨⟨true, [0x1F, 0x04, 0x01, 0x41], 4, 3, 1⟩, ⟨[0x1F, 0x04, 0x01, 0x41], .own 4 3 1⟩, ⟨[0x1F, 0x02, 0x41, 0x41], .own 2 2 2⟩,
    by decide +kernel, by decide +kernel, rfl, by decide +kernel, by decide +kernel, rfl, by decide +kernel, _, rfl, by decide +kernel⟩

/-- A container that failed to decode is invalid, but a container assigned from it is "valid", and reading its class is undefined behaviour. -/
theorem C84_violated_copy (p q : Packet) (v : BerView) (hv : v.valid = false) :
    ∃ r, p.decode v = .ok (false, r) ∧ r.isValid = false ∧ (q.copyFrom r).isValid = true ∧ (q.copyFrom r).view.cls = .ub := by
  obtain ⟨t, h⟩ := Packet.decode_invalid p v hv
  exact ⟨_, h, rfl, rfl, rfl⟩

/-- A container that has been moved from still claims to be valid, and shows memory that is not its own. -/
theorem C84_violated_moved_from (p : Packet) : (Packet.movedFrom p).isValid = true ∧ (Packet.movedFrom p).view.cls = .ub := ⟨rfl, rfl⟩

/-- Construction from *content* parses the content as a packet first, which overflows for content that looks like a long tag. -/
theorem C84_violated_content : Packet.ofSpan [0x1F, 0xFF, 0xFF, 0xFF, 0xFF, 0xFF, 0xFF, 0xFF, 0xFF, 0xFF, 0x00] false = .ub := by decide +kernel

/-! ## Concrete cases -/

example : Packet.ofElement .primitive .contextSpecific 1000 [1, 2, 3] = .ok ⟨[0x9F, 0x87, 0x68, 3, 1, 2, 3], .own 1000 4 3⟩ := by decide +kernel
example : PacketReach ⟨[0x9F, 0x87, 0x68, 5, 1, 2, 3, 0, 0], .own 1000 4 5⟩ :=
  .resize (p := ⟨[0x9F, 0x87, 0x68, 3, 1, 2, 3], .own 1000 4 3⟩) (n := 5) (c := .contextSpecific) (k := .primitive) (t := 1000)
    (rest := [3, 1, 2, 3])
    (.assignElement (p := .default) (k := .primitive) (c := .contextSpecific) (t := 1000) (x := [1, 2, 3]) (by decide) (by decide +kernel)
      (by decide +kernel)) rfl (by decide +kernel) (by decide) (by decide +kernel) (by decide +kernel)

end FastBer.Props
