import Verif.Proofs.Reader
/-! # Properties C06-C11: views, iteration, wrapping -/
namespace FastBer.Props
open FastBer Spec
set_option maxRecDepth 100000

/-- C06 is false of the code: nine continuation octets overflow the `int64_t` tag. -/
theorem C06_violated : ∃ input : Bytes, BerView.parse input = .ub :=
  ⟨[0x1F, 0xFF, 0xFF, 0xFF, 0xFF, 0xFF, 0xFF, 0xFF, 0xFF, 0xFF, 0x00, 0x00], by decide⟩

/-- C06, exact: parsing always terminates, and has undefined behaviour exactly for inputs that
start with a long-form tag one of whose prefixes of continuation octets has a value of at least
2^56 (so that the next `tag *= 0x80` overflows). -/
theorem C06_parse_safe_partial (input : Bytes) :
    (BerView.parse input).Safe ↔
      ¬ ∃ first mid tail, input = first :: (mid ++ tail) ∧ first.toNat % 32 = 31 ∧
        (∀ b ∈ mid, 128 ≤ b.toNat) ∧ 2 ^ 56 ≤ value128 mid := by
  rw [← assign_ub_iff_tag input 0]
  unfold BerView.parse
  cases h : BerView.assign input 0 with
  | ok v => simp
  | ub => simp
  | loop => exact absurd h (assign_not_loop _ _)

/-- C06, usable form: inputs whose tag has at most 8 continuation octets are parsed safely. -/
theorem C06_parse_safe_short_tag_partial (first : UInt8) (rest : Bytes)
    (h : first.toNat % 32 ≠ 31 ∨ ∃ mid last tail, rest = mid ++ last :: tail ∧ mid.length ≤ 8 ∧ last.toNat < 128) :
    (BerView.parse (first :: rest)).Safe := by
  rw [C06_parse_safe_partial]
  rintro ⟨f, mid', tail', e, h31, hall, hv⟩
  simp only [List.cons.injEq] at e
  obtain ⟨rfl, e⟩ := e
  rcases h with h | ⟨mid, last, tail, e2, hl, hlast⟩
  · exact h h31
  · have hlt := value128_lt mid'
    have h9 : 9 ≤ mid'.length := by
      rcases Nat.lt_or_ge mid'.length 9 with h8 | h8
      · exfalso
        have : 128 ^ mid'.length ≤ 128 ^ 8 := Nat.pow_le_pow_right (by decide) (by omega)
        omega
      · exact h8
    have hmem : last ∈ mid' := by
      have h1 : (mid' ++ tail').take mid'.length = mid' := by simp
      rw [← e, e2] at h1
      rw [← h1, List.take_append]
      apply List.mem_append_right
      have : 0 < mid'.length - mid.length := by omega
      obtain ⟨j, hj⟩ : ∃ j, mid'.length - mid.length = j + 1 := ⟨mid'.length - mid.length - 1, by omega⟩
      rw [hj, List.take_succ_cons]; simp
    have := hall last hmem
    omega

example : (BerView.parse [0x1F, 0x87, 0xFF, 0x7F, 0x00]).Safe := ⟨_, rfl⟩

/-- C07 is false of the code: a length field of 2^64 - 10 wraps `header + content` to 0, so a
10-byte input yields a valid view whose content is outside the buffer. -/
theorem C07_violated : ∃ input v, BerView.parse input = .ok v ∧ v.valid = true ∧ v.content = .ub :=
  ⟨[0x04, 0x88, 0xFF, 0xFF, 0xFF, 0xFF, 0xFF, 0xFF, 0xFF, 0xF6], _, rfl, rfl, by decide⟩

/-- C07 under the missing check: if the announced total does not wrap, header and content of a
valid view are sub-ranges of the input. -/
theorem C07_view_inside_partial (input : Bytes) (v : BerView) (h : BerView.parse input = .ok v)
    (hv : v.valid = true) (hw : v.hdr + v.len < 2 ^ 64) :
    v.hdr + v.len ≤ input.length ∧
    v.content = .ok ((input.drop v.hdr).take v.len) ∧
    v.ber = .ok (input.take (v.hdr + v.len)) ∧
    (∃ c, v.cls = .ok c) ∧ (∃ k, v.construction = .ok k) := by
  obtain ⟨hm, h2, hh, _, hb, _⟩ := assign_valid h hv
  have e : v.berLength = v.hdr + v.len := by rw [BerView.berLength, u64_of_lt hw]
  rw [e] at hb
  refine ⟨hb, ?_, ?_, ?_, ?_⟩
  · rw [BerView.content, hm, if_pos hb]
  · rw [BerView.ber, e, hm, if_pos hb]
  · rw [BerView.cls, hm]
    cases input with
    | nil => simp at hh; omega
    | cons b _ => exact ⟨_, rfl⟩
  · rw [BerView.construction, hm]
    cases input with
    | nil => simp at hh; omega
    | cons b _ => exact ⟨_, rfl⟩

/-- C07: the only way to leave the buffer is the 2^64 wrap, and then the announced length is at
least 2^64 minus the header size. -/
theorem C07_escape_only_by_wrap (input : Bytes) (v : BerView) (h : BerView.parse input = .ok v)
    (hv : v.valid = true) (hbad : v.content = .ub) : 2 ^ 64 ≤ v.hdr + v.len := by
  rcases Nat.lt_or_ge (v.hdr + v.len) (2 ^ 64) with hw | hw
  · have := (C07_view_inside_partial input v h hv hw).2.1
    rw [this] at hbad; cases hbad
  · exact hw

/-- C08 (suffix).  A span that parses keeps parsing, to the same view, when bytes are appended. -/
theorem C08_parse_append (input s : Bytes) (v : BerView) (h : BerView.parse input = .ok v)
    (hv : v.valid = true) :
    ∃ v', BerView.parse (input ++ s) = .ok v' ∧ v'.valid = true ∧ v'.tag = v.tag ∧ v'.hdr = v.hdr ∧
      v'.len = v.len ∧ v'.cls = v.cls ∧ v'.construction = v.construction ∧ v'.ber = v.ber := by
  obtain ⟨hm, h2, hh, _, hb, _⟩ := assign_valid h hv
  refine ⟨_, assign_append h hv s 0, hv, rfl, rfl, rfl, ?_, ?_, ?_⟩
  · simp only [BerView.cls, hm]
    cases input with
    | nil => simp at hh; omega
    | cons b _ => rfl
  · simp only [BerView.construction, hm]
    cases input with
    | nil => simp at hh; omega
    | cons b _ => rfl
  · have e1 : BerView.ber ⟨v.valid, input ++ s, v.tag, v.hdr, v.len⟩
        = .ok ((input ++ s).take v.berLength) := by
      unfold BerView.ber
      have hle : BerView.berLength ⟨v.valid, input ++ s, v.tag, v.hdr, v.len⟩ ≤ (input ++ s).length := by
        rw [List.length_append]; exact Nat.le_trans hb (Nat.le_add_right _ _)
      rw [if_pos hle]; rfl
    have e2 : v.ber = .ok (input.take v.berLength) := by
      unfold BerView.ber; rw [hm, if_pos hb]
    rw [e2]; exact e1.trans (by rw [List.take_append_of_le_length hb])

/-- C08 (truncation).  Every strict truncation of an element is rejected (and safely so). -/
theorem C08_parse_truncated (input : Bytes) (v : BerView) (h : BerView.parse input = .ok v)
    (hv : v.valid = true) (hw : v.hdr + v.len < 2 ^ 64) (m : Nat) (hm : m < v.hdr + v.len) :
    ∃ v', BerView.parse (input.take m) = .ok v' ∧ v'.valid = false := by
  obtain ⟨t, ht⟩ := assign_take h hv hw m hm 0
  exact ⟨_, ht, rfl⟩

/-- C08 (only the own bytes matter): replacing everything after the element changes nothing. -/
theorem C08_parse_local (input s : Bytes) (v : BerView) (h : BerView.parse input = .ok v)
    (hv : v.valid = true) (hw : v.hdr + v.len < 2 ^ 64) :
    ∃ v', BerView.parse (input.take (v.hdr + v.len) ++ s) = .ok v' ∧ v'.valid = true ∧ v'.tag = v.tag ∧
      v'.hdr = v.hdr ∧ v'.len = v.len ∧ v'.content = v.content := by
  obtain ⟨hin, hc, _⟩ := C07_view_inside_partial input v h hv hw
  obtain ⟨hm, h2, hh, hl, hb, tagLen, lenLen, e1, e2, e3, p1, p2⟩ := assign_valid h hv
  rcases extractTag_ok _ _ _ _ e1 with h0 | ⟨hle, a1, _⟩
  · omega
  rcases extractLength_ok _ _ _ _ _ e2 with h0 | ⟨hle2, _, _, _, b1, _⟩
  · omega
  have s1 : input.take (v.hdr + v.len) ++ s
      = input.take tagLen ++ ((input.take (v.hdr + v.len)).drop tagLen ++ s) := by
    rw [← List.append_assoc, ← take_split input tagLen (v.hdr + v.len) (by omega)]
  have s2 : input.take (v.hdr + v.len) ++ s
      = input.take (tagLen + lenLen) ++ ((input.take (v.hdr + v.len)).drop (tagLen + lenLen) ++ s) := by
    rw [← List.append_assoc, ← take_split input (tagLen + lenLen) (v.hdr + v.len) (by omega)]
  refine ⟨⟨true, input.take (v.hdr + v.len) ++ s, v.tag, v.hdr, v.len⟩, ?_, rfl, rfl, rfl, rfl, ?_⟩
  · unfold BerView.parse BerView.assign
    have ha := a1 ((input.take (v.hdr + v.len)).drop tagLen ++ s) 0
    rw [← s1] at ha
    rw [ha]; simp only [Exec.ok_bind]
    have hb2 := b1 ((input.take (v.hdr + v.len)).drop (tagLen + lenLen) ++ s)
    rw [← s2] at hb2
    rw [hb2]; simp only [Exec.ok_bind]
    rw [← e3, u64_of_lt hw, if_neg]
    simp only [List.length_append, List.length_take]; omega
  · rw [hc, BerView.content, if_pos (by simp only [List.length_append, List.length_take]; omega)]
    simp only
    rw [List.drop_append_of_le_length (by simp only [List.length_take]; omega), List.drop_take,
      List.take_append_of_le_length (by simp only [List.length_take, List.length_drop]; omega),
      List.take_take]
    congr 2
    omega

example : ∃ v, BerView.parse [0x30, 0x03, 0x02, 0x01, 0x05, 0xAA] = .ok v ∧ v.valid = true ∧ v.hdr + v.len < 2 ^ 64 :=
  ⟨_, rfl, rfl, by decide⟩

/-- C09 is false of the code: a child whose length wraps to 0 makes the iteration endless. -/
theorem C09_violated : ∃ content : Bytes, iterate content 0 = .loop :=
  ⟨[0x04, 0x88, 0xFF, 0xFF, 0xFF, 0xFF, 0xFF, 0xFF, 0xFF, 0xF6], by
    rw [iterate]; decide⟩

/-- The state of such an iterator does not change under `operator++`: the iteration really is
endless. -/
theorem C09_violated_fixpoint :
    ∃ it : Iter, it.view.valid = true ∧ Iter.mk' it.buf = .ok it ∧ it.next = .ok it :=
  ⟨⟨[0x04, 0x88, 0xFF, 0xFF, 0xFF, 0xFF, 0xFF, 0xFF, 0xFF, 0xF6],
    ⟨true, [0x04, 0x88, 0xFF, 0xFF, 0xFF, 0xFF, 0xFF, 0xFF, 0xFF, 0xF6], 4, 10, 2 ^ 64 - 10⟩⟩,
    rfl, by decide, by decide⟩

/-- C09 on tame content: the iteration ends, and the children are non-empty valid elements that
lie one after the other from the first content byte; what is left over does not parse. -/
theorem C09_iteration_partial (content : Bytes) (h : Tame content) :
    ∃ (vs : List BerView) (rest : Bytes), iterate content 0 = .ok vs ∧
      (∀ v ∈ vs, v.valid = true ∧ 2 ≤ v.hdr + v.len ∧ v.hdr + v.len ≤ v.mem.length) ∧
      content = (vs.map fun v => v.mem.take (v.hdr + v.len)).flatten ++ rest ∧
      (∃ v tag0, BerView.assign rest tag0 = .ok v ∧ v.valid = false) := by
  obtain ⟨vs, hvs⟩ := iterate_tame content 0 h
  have ht := iterate_tiles content 0 vs hvs
  suffices ∃ rest : Bytes,
      (∀ v ∈ vs, v.valid = true ∧ 2 ≤ v.hdr + v.len ∧ v.hdr + v.len ≤ v.mem.length) ∧
      content = (vs.map fun v => v.mem.take (v.hdr + v.len)).flatten ++ rest ∧
      (∃ v tag0, BerView.assign rest tag0 = .ok v ∧ v.valid = false) by
    obtain ⟨rest, h1, h2, h3⟩ := this
    exact ⟨vs, rest, hvs, h1, h2, h3⟩
  clear hvs
  generalize (0 : Int) = t0 at ht
  induction ht with
  | stop ha => exact ⟨_, by simp, by simp, _, _, ha, rfl⟩
  | @step bs tag0 v vs ha hv hpos hle _ ih =>
    obtain ⟨rest, h1, h2, h3⟩ := ih (h.infix (List.drop_suffix _ _).isInfix)
    obtain ⟨e, e2, e3⟩ := h.berLength ha hv
    obtain ⟨hm, _⟩ := assign_valid ha hv
    refine ⟨rest, ?_, ?_, h3⟩
    · intro w hw
      rcases List.mem_cons.mp hw with rfl | hw
      · exact ⟨hv, by omega, by rw [hm]; omega⟩
      · exact h1 w hw
    · simp only [List.map_cons, List.flatten_cons, List.append_assoc]
      rw [← h2, hm, e, List.take_append_drop]

/-- `++` applied `n` times. -/
def advance : Nat → Iter → Exec Iter
  | 0, it => .ok it
  | n + 1, it => do
    let it' ← it.next
    advance n it'

/-- The children are what the iterator shows: after `k` increments from the beginning of the contents the iterator stands on
the `k`-th child, and after as many increments as there are children it is at the end (its view is invalid). -/
theorem C09_walk_partial (content : Bytes) (vs : List BerView) (hi : iterate content 0 = .ok vs) (k : Nat)
    (hk : k ≤ vs.length) :
    ∃ first it, Iter.mk' content = .ok first ∧ advance k first = .ok it ∧
      (∀ hk : k < vs.length, it.view = vs[k]) ∧ (it.view.valid = false ↔ k = vs.length) := by
  have ht := iterate_tiles content 0 vs hi
  suffices ∀ t0, Tiles content t0 vs → ∃ v it, BerView.assign content t0 = .ok v ∧ advance k ⟨content, v⟩ = .ok it ∧
      (∀ hk : k < vs.length, it.view = vs[k]) ∧ (it.view.valid = false ↔ k = vs.length) by
    obtain ⟨v, it, h1, h2⟩ := this 0 ht
    exact ⟨⟨content, v⟩, it, by rw [Iter.mk', BerView.parse, h1]; rfl, h2⟩
  clear ht hi
  intro t0 ht
  induction ht generalizing k with
  | stop ha =>
    simp only [List.length_nil, Nat.le_zero] at hk
    subst hk
    exact ⟨_, _, ha, rfl, fun h => by simp at h, by simp [BerView.invalid]⟩
  | @step bs tag0 v vs ha hv hpos hle _ ih =>
    cases k with
    | zero => exact ⟨v, ⟨bs, v⟩, ha, rfl, fun _ => rfl, by simp [hv]⟩
    | succ k =>
      simp only [List.length_cons, Nat.add_le_add_iff_right] at hk
      obtain ⟨w, it, h1, h2, h3, h4⟩ := ih k hk
      refine ⟨v, it, ha, ?_, fun hk' => ?_, ?_⟩
      · rw [advance, Iter.next, if_neg (by simp only; omega)]
        simp only [h1, Exec.ok_bind]
        exact h2
      · simp only [List.length_cons, Nat.add_lt_add_iff_right] at hk'
        rw [h3 hk']; rfl
      · rw [h4, List.length_cons]; omega

/-- Tameness follows from simple syntactic conditions, so C09 and the later safety theorems apply
to all inputs without long runs of high octets and without a 0x88 0xFF length field. -/
theorem C09_plain_is_tame (bs : Bytes) (h : Plain bs) : Tame bs := h.tame

/-- A boolean check implying `Plain`, used for the examples. -/
theorem plain_of_all_small (bs : Bytes) (h : ∀ b ∈ bs, b.toNat < 128) (hl : bs.length < 2 ^ 56) : Plain bs where
  noLongRun := by
    intro r hr hlen
    cases r with
    | nil => simp at hlen
    | cons b r => exact ⟨b, by simp, h b (hr.subset (by simp))⟩
  noHugeLength := by
    intro hc
    have := h 0x88 (hc.subset (by simp))
    exact absurd this (by decide)
  size := hl

example : ∃ vs, iterate [0x02, 0x01, 0x05, 0x04, 0x02, 0x41, 0x42, 0x00] 0 = .ok vs ∧ vs.length = 2 :=
  ⟨[⟨true, [0x02, 0x01, 0x05, 0x04, 0x02, 0x41, 0x42, 0x00], 2, 2, 1⟩,
    ⟨true, [0x04, 0x02, 0x41, 0x42, 0x00], 4, 2, 2⟩], by decide +kernel, rfl⟩
example : Tame [0x02, 0x01, 0x05, 0x04, 0x02, 0x41, 0x42, 0x00] :=
  (plain_of_all_small _ (by decide) (by decide)).tame

/-- C10.  Copying a (non-wrapped) valid view into a buffer. -/
theorem C10_view_encode (input : Bytes) (v : BerView) (h : BerView.parse input = .ok v)
    (hv : v.valid = true) (hw : v.hdr + v.len < 2 ^ 64) (buf : Bytes) :
    v.encode buf = .ok (if v.hdr + v.len ≤ buf.length
      then (⟨true, v.hdr + v.len⟩, input.take (v.hdr + v.len) ++ buf.drop (v.hdr + v.len))
      else (⟨false, 0⟩, buf)) := by
  obtain ⟨hin, _, hb, _⟩ := C07_view_inside_partial input v h hv hw
  have e : v.berLength = v.hdr + v.len := by rw [BerView.berLength, u64_of_lt hw]
  unfold BerView.encode
  rw [e]
  by_cases hf : v.hdr + v.len ≤ buf.length
  · rw [if_neg (by omega), if_pos hf, hb]
    simp only [Exec.ok_bind, writePrefix, List.length_take]
    rw [Nat.min_eq_left hin]
  · rw [if_pos (by omega), if_neg hf]; rfl

/-- C11 (fits).  Content anywhere in the buffer is wrapped: result = header for exactly that content,
the content, then the old bytes of the buffer; the memmove never corrupts the content. -/
theorem C11_wrap_success (pre content post : Bytes) (id : Ident) (k : Construction) (h : identOk id)
    (hn : id.encodedLength content.length < 2 ^ 64)
    (hb : id.encodedLength content.length ≤ (pre ++ content ++ post).length) :
    wrapWithBerHeader (pre ++ content ++ post) content.length id pre.length k =
      .ok (⟨true, id.encodedLength content.length⟩,
        tagged id k content ++ (pre ++ content ++ post).drop (id.encodedLength content.length)) :=
  wrap_fits pre content post id k h hn hb

/-- C11 (does not fit).  Fails and leaves the buffer alone. -/
theorem C11_wrap_failure (buf : Bytes) (n offset : Nat) (id : Ident) (k : Construction)
    (hb : buf.length < id.encodedLength n) :
    wrapWithBerHeader buf n id offset k = .ok (⟨false, 0⟩, buf) :=
  wrap_short buf n offset id k hb

/-- The size computed by `encoded_length` is the size of the X.690 element(s). -/
theorem C11_encoded_length (content : Bytes) (id : Ident) (k : Construction) (h : identOk id)
    (hn : id.encodedLength content.length < 2 ^ 64) :
    (tagged id k content).length = id.encodedLength content.length :=
  length_tagged h k content hn

example : wrapWithBerHeader [0xEE, 1, 2, 3, 0xDD, 0xDD, 0xDD, 0xDD] 3 (.double ⟨.application, 3⟩ ⟨.universal, 16⟩) 1
    .constructed = .ok (⟨true, 7⟩, [0x63, 5, 0x30, 3, 1, 2, 3, 0xDD]) := by decide

end FastBer.Props
