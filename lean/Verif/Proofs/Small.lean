import Verif.Proofs.Decode
import Verif.Proofs.Integer
/-! # Lemmas about the fixed-size containers -/
namespace FastBer
open Spec

theorem lengthOctets_small {n : Nat} (h : n < 128) : lengthOctets n = [UInt8.ofNat n] := by
  simp [lengthOctets, h]

theorem encodedLengthLength_small {n : Nat} (h : n < 128) : encodedLengthLength n = 1 := by
  simp [encodedLengthLength, h]

theorem encodedTagLength_le (t : Int) : encodedTagLength t ≤ 10 := by
  unfold encodedTagLength; repeat' split
  all_goals omega

theorem Id.headerLength_small (i : Id) {n : Nat} (h : n < 128) : i.headerLength n = encodedTagLength i.tag + 1 := by
  simp [Id.headerLength, encodedLengthLength_small h]

theorem Ident.headerLength_small (id : Ident) {n : Nat} (h : n ≤ 100) : id.headerLength n = id.headerLength 0 := by
  cases id with
  | single i => simp only [Ident.headerLength, Id.headerLength_small i (show n < 128 by omega),
      Id.headerLength_small i (show 0 < 128 by omega)]
  | double o i =>
    have := encodedTagLength_le i.tag
    have h1 := Id.headerLength_small i (show n < 128 by omega)
    have h2 := Id.headerLength_small i (show 0 < 128 by omega)
    simp only [Ident.headerLength, Id.encodedLength, h1, h2]
    rw [Id.headerLength_small o (show _ < 128 by omega), Id.headerLength_small o (show _ < 128 by omega)]

theorem Ident.encodedLength_lt (id : Ident) (n : Nat) : id.encodedLength n ≤ n + 38 := by
  have h1 : ∀ (i : Id) n, i.encodedLength n ≤ n + 19 := by
    intro i n; have := FastBer.headerLength_le i n; simp only [Id.encodedLength]; omega
  cases id with
  | single i => have := h1 i n; simp only [Ident.encodedLength]; omega
  | double o i =>
    have := h1 i n; have := h1 o (i.encodedLength n); simp only [Ident.encodedLength]; omega

theorem length_identHeader_small {id : Ident} (h : identOk id) {n : Nat} (hn : n ≤ 100) :
    (identHeader id .primitive n).length = id.headerLength 0 := by
  have := Ident.encodedLength_lt id n
  rw [length_identHeader h _ _ (by omega), Ident.headerLength_small id hn]

theorem length_identifierOctetsId {i : Id} (h : idOk i) (k : Construction) :
    (identifierOctets i.cls k i.tag.toNat).length = encodedTagLength i.tag := by
  rw [length_identifierOctets _ _ _ (toNat_lt h), natCast_toNat h]

theorem set_append_at (p q : Bytes) (a b : UInt8) (n : Nat) (h : n = p.length) :
    (p ++ a :: q).set n b = p ++ b :: q := by
  subst h; simp

/-- `set_content_length` turns the header for one small length into the header for another. -/
theorem setContentLength_header {id : Ident} (h : identOk id) {m n : Nat} (hm : m ≤ 100) (hn : n ≤ 100)
    (rest : Bytes) :
    Small.setContentLength id (identHeader id .primitive m ++ rest) n = identHeader id .primitive n ++ rest := by
  cases id with
  | single i =>
    have hl := length_identifierOctetsId h .primitive
    simp only [Small.setContentLength, identHeader, header, lengthOctets_small (show m < 128 by omega),
      lengthOctets_small (show n < 128 by omega), List.append_assoc, List.singleton_append]
    apply set_append_at
    rw [hl, Ident.headerLength, Id.headerLength_small i (by omega)]; omega
  | double o i =>
    obtain ⟨ho, hi⟩ := h
    have hlo := length_identifierOctetsId ho .constructed
    have hli := length_identifierOctetsId hi .primitive
    have ht := encodedTagLength_le i.tag
    have key : ∀ n, n ≤ 100 → identHeader (.double o i) .primitive n =
        identifierOctets o.cls .constructed o.tag.toNat ++ UInt8.ofNat (i.encodedLength n) ::
          (identifierOctets i.cls .primitive i.tag.toNat ++ [UInt8.ofNat n]) := by
      intro n hn
      have e : i.encodedLength n = encodedTagLength i.tag + 1 + n := by
        simp only [Id.encodedLength, Id.headerLength_small i (show n < 128 by omega)]
      simp only [identHeader, header, lengthOctets_small (show n < 128 by omega), List.length_append, hli,
        List.length_cons, List.length_nil]
      rw [lengthOctets_small (by omega), e]
      simp
    rw [key m hm, key n hn]
    simp only [Small.setContentLength]
    have e2 : (Ident.double o i).headerLength 0 - 1 =
        encodedTagLength o.tag + 1 + encodedTagLength i.tag := by
      simp only [Ident.headerLength, Id.encodedLength, Id.headerLength_small i (show 0 < 128 by omega)]
      rw [Id.headerLength_small o (by omega)]; omega
    have e1 : o.headerLength 0 - 1 = encodedTagLength o.tag := by
      rw [Id.headerLength_small o (by omega)]; omega
    rw [e1, e2]
    have s1 : (identifierOctets o.cls .constructed o.tag.toNat ++ UInt8.ofNat (i.encodedLength m) ::
          (identifierOctets i.cls .primitive i.tag.toNat ++ [UInt8.ofNat m])) ++ rest
        = (identifierOctets o.cls .constructed o.tag.toNat ++ UInt8.ofNat (i.encodedLength m) ::
          identifierOctets i.cls .primitive i.tag.toNat) ++ UInt8.ofNat m :: rest := by simp
    rw [s1, set_append_at _ _ _ _ _ (by simp [hlo, hli]; omega)]
    simp only [List.append_assoc, List.cons_append, List.nil_append]
    rw [set_append_at _ _ _ _ _ hlo.symm]

/-- Invariant of the fixed-size container: canonical element with the current content, then unused space. -/
def SmallWf (id : Ident) (max : Nat) (content : Bytes) (d : Bytes) : Prop :=
  content.length ≤ max ∧ ∃ junk, d = tagged id .primitive content ++ junk ∧ content.length + junk.length = max

theorem SmallWf.split {id : Ident} {max : Nat} {c d : Bytes} (h : SmallWf id max c d) :
    ∃ junk, d = identHeader id .primitive c.length ++ (c ++ junk) ∧ c.length + junk.length = max := by
  obtain ⟨_, junk, e, hl⟩ := h
  exact ⟨junk, by rw [e, tagged_eq, List.append_assoc], hl⟩

theorem SmallWf.of {id : Ident} {max n : Nat} {d rest : Bytes} (hn : n ≤ max)
    (e : d = identHeader id .primitive n ++ rest) (hr : rest.length = max) :
    SmallWf id max (rest.take n) d := by
  have hl : (rest.take n).length = n := by rw [List.length_take]; omega
  refine ⟨by omega, rest.drop n, ?_, by rw [hl, List.length_drop]; omega⟩
  rw [e, tagged_eq, hl, List.append_assoc, List.take_append_drop]

theorem SmallWf.length {id : Ident} {max : Nat} {c d : Bytes} (hid : identOk id) (hmax : max ≤ 100)
    (h : SmallWf id max c d) : d.length = id.headerLength 0 + max := by
  obtain ⟨junk, e, hl⟩ := h.split
  rw [e, List.length_append, length_identHeader_small hid (by omega), List.length_append]; omega

theorem identHeader_last {id : Ident} (_h : identOk id) {n : Nat} (hn : n ≤ 100) :
    ∃ p, identHeader id .primitive n = p ++ [UInt8.ofNat n] := by
  cases id with
  | single i => exact ⟨_, by simp only [identHeader, header, lengthOctets_small (show n < 128 by omega)]; rfl⟩
  | double o i =>
    refine ⟨header o.cls .constructed o.tag.toNat ((header i.cls .primitive i.tag.toNat n).length + n) ++
      identifierOctets i.cls .primitive i.tag.toNat, ?_⟩
    have e : header i.cls .primitive i.tag.toNat n
        = identifierOctets i.cls .primitive i.tag.toNat ++ [UInt8.ofNat n] := by
      rw [header, lengthOctets_small (show n < 128 by omega)]
    simp only [identHeader, List.append_assoc, ← e]

theorem SmallWf.contentLength {id : Ident} {max : Nat} {c d : Bytes} (hid : identOk id) (hmax : max ≤ 100)
    (h : SmallWf id max c d) : Small.contentLength id d = c.length := by
  obtain ⟨junk, e, hl⟩ := h.split
  have hc : c.length ≤ 100 := by omega
  obtain ⟨p, hp⟩ := identHeader_last hid hc
  have hh := length_identHeader_small hid hc
  rw [hp] at hh
  simp only [List.length_append, List.length_cons, List.length_nil] at hh
  rw [Small.contentLength, e, hp, ← hh]
  simp only [List.append_assoc]
  rw [List.getD_eq_getElem?_getD, List.getElem?_append_right (by omega)]
  simp; omega

theorem SmallWf.content {id : Ident} {max : Nat} {c d : Bytes} (hid : identOk id) (hmax : max ≤ 100)
    (h : SmallWf id max c d) : Small.content id d = .ok c := by
  have h1 := h.contentLength hid hmax
  have h2 := h.length hid hmax
  obtain ⟨junk, e, hl⟩ := h.split
  rw [Small.content, h1, if_pos (by omega)]
  have hh := length_identHeader_small hid (show c.length ≤ 100 by omega)
  rw [e, ← hh, List.drop_left, List.take_left]

theorem SmallWf.berLength {id : Ident} {max : Nat} {c d : Bytes} (hid : identOk id) (hmax : max ≤ 100)
    (h : SmallWf id max c d) : Small.berLength id d = (tagged id .primitive c).length := by
  have h1 := h.contentLength hid hmax
  obtain ⟨hc, _⟩ := h
  have := Ident.encodedLength_lt id c.length
  rw [Small.berLength, h1, tagged_eq, List.length_append, length_identHeader_small hid (by omega)]

theorem SmallWf.encode {id : Ident} {max : Nat} {c d : Bytes} (hid : identOk id) (hmax : max ≤ 100)
    (h : SmallWf id max c d) (buf : Bytes) :
    Small.encode id d buf = .ok (if (tagged id .primitive c).length ≤ buf.length
      then (⟨true, (tagged id .primitive c).length⟩,
        tagged id .primitive c ++ buf.drop (tagged id .primitive c).length)
      else (⟨false, 0⟩, buf)) := by
  have hb := h.berLength hid hmax
  obtain ⟨_, junk, e, _⟩ := h
  rw [Small.encode, hb]
  by_cases hf : (tagged id .primitive c).length ≤ buf.length
  · rw [if_neg (by omega), if_pos hf, if_pos (by rw [e]; simp)]
    rw [e, List.take_left]; rfl
  · rw [if_pos (by omega), if_neg hf]; rfl

theorem SmallWf.set {id : Ident} {max : Nat} {c d : Bytes} (hid : identOk id) (hmax : max ≤ 100)
    (h : SmallWf id max c d) (area : Bytes) (ha : area.length ≤ max) (n : Nat) (hn : n ≤ area.length) :
    SmallWf id max (area.take n)
      (Small.setContentLength id (writeAt d (id.headerLength 0) area) n) := by
  obtain ⟨junk, e, hl⟩ := h.split
  have hh := length_identHeader_small hid (show c.length ≤ 100 by omega)
  have hw : writeAt d (id.headerLength 0) area =
      identHeader id .primitive c.length ++ (area ++ (c ++ junk).drop area.length) := by
    rw [writeAt, e, ← hh, List.take_left, List.drop_append]
    simp
  rw [hw, setContentLength_header hid (by omega) (by omega)]
  have hr : (area ++ (c ++ junk).drop area.length).length = max := by
    simp only [List.length_append, List.length_drop]; omega
  have := SmallWf.of (id := id) (n := n) (by omega) rfl hr
  rwa [List.take_append_of_le_length hn] at this

theorem SmallWf.assignContent {id : Ident} {max : Nat} {c d : Bytes} (hid : identOk id) (hmax : max ≤ 100)
    (h : SmallWf id max c d) (c' : Bytes) (hc : c'.length ≤ max) :
    ∃ d', Small.assignContent id d c' = .ok d' ∧ SmallWf id max c' d' := by
  have h2 := h.length hid hmax
  refine ⟨_, by rw [Small.assignContent, if_pos (by omega)], ?_⟩
  have := h.set hid hmax c' hc c'.length (Nat.le_refl _)
  rwa [List.take_length] at this

theorem SmallWf.init {id : Ident} (hid : identOk id) (max : Nat) : SmallWf id max [] (Small.init id max) := by
  have := Ident.encodedLength_lt id 0
  rw [Small.init, encodeHeaderId_fits _ _ _ _ hid (by omega) (by simp)]
  refine ⟨by simp, List.replicate max 0, ?_, by simp⟩
  rw [tagged_eq]; simp

theorem SmallWf.decode_match {id : Ident} {max : Nat} {c d : Bytes} (hid : identOk id) (hmax : max ≤ 100)
    (h : SmallWf id max c d) {v w : BerView} {c' : Bytes} (hw : Matches v id .primitive w)
    (hc : w.content = .ok c') (hcl : c'.length = w.len) (hl : w.len ≤ max) :
    ∃ d', Small.decode id max d v = .ok (true, d') ∧ SmallWf id max c' d' := by
  obtain ⟨d', e, hd'⟩ := h.assignContent hid hmax c' (by omega)
  refine ⟨d', ?_, hd'⟩
  simp [Small.decode, hasCorrectHeader_true.mpr ⟨w, hw⟩, innerView_of_matches hw, hc, e, Nat.not_lt.mpr hl]

/-- `decode` of the fixed-size container on a sane view: exact outcome. -/
theorem SmallWf.decode {id : Ident} {max : Nat} {c d : Bytes} (hid : identOk id) (hmax : max ≤ 100)
    (h : SmallWf id max c d) (v : BerView) (hs : SaneView v) :
    (∃ w c' d', Matches v id .primitive w ∧ w.content = .ok c' ∧ c'.length ≤ max ∧
        Small.decode id max d v = .ok (true, d') ∧ SmallWf id max c' d') ∨
    ((∀ w, Matches v id .primitive w → max < w.len) ∧ Small.decode id max d v = .ok (false, d)) := by
  rcases hasCorrectHeader_cases hs id .primitive with ⟨hh, w, hw⟩ | ⟨hh, hn⟩
  · have hsw := matches_sane hs hw
    have hwv := (matches_valid hw).2
    have hlen : ((w.mem.drop w.hdr).take w.len).length = w.len := by
      have := hsw.bound hwv
      rw [List.length_take, List.length_drop]; omega
    by_cases hl : w.len ≤ max
    · obtain ⟨d', e, hd'⟩ := h.assignContent hid hmax ((w.mem.drop w.hdr).take w.len) (by omega)
      refine .inl ⟨w, _, d', hw, hsw.content, by omega, ?_, hd'⟩
      simp [Small.decode, hh, innerView_of_matches hw, hsw.content, e, Nat.not_lt.mpr hl]
    · refine .inr ⟨fun w' hw' => ?_, ?_⟩
      · rw [← matches_unique hw hw']; omega
      · simp [Small.decode, hh, innerView_of_matches hw, Nat.lt_of_not_le hl]
  · refine .inr ⟨fun w hw => absurd hw (hn w), ?_⟩
    simp [Small.decode, hh]

theorem content_ok_length {w : BerView} {c : Bytes} (h : w.content = .ok c) : c.length = w.len := by
  rw [BerView.content] at h
  split at h
  · simp only [Exec.ok.injEq] at h
    rw [← h, List.length_take, List.length_drop]; omega
  · cases h

/-- Whenever `decode` of the fixed-size container returns (on any input), this is what it did. -/
theorem SmallWf.decode_inv {id : Ident} {max : Nat} {c d : Bytes} (hid : identOk id) (hmax : max ≤ 100)
    (h : SmallWf id max c d) (v : BerView) (r : Bool) (d' : Bytes) (he : Small.decode id max d v = .ok (r, d')) :
    (r = true ∧ ∃ w c', Matches v id .primitive w ∧ w.content = .ok c' ∧ c'.length ≤ max ∧ SmallWf id max c' d') ∨
    (r = false ∧ d' = d) := by
  rw [Small.decode, Exec.bind_eq_ok] at he
  obtain ⟨b, hb, he⟩ := he
  cases b with
  | false =>
    simp only [Bool.not_false, if_true, Exec.ok.injEq, Prod.mk.injEq] at he
    exact .inr ⟨he.1.symm, he.2.symm⟩
  | true =>
    obtain ⟨w, hw⟩ := hasCorrectHeader_true.mp hb
    simp only [Bool.not_true, Bool.false_eq_true, if_false, innerView_of_matches hw, Exec.ok_bind] at he
    split at he
    · simp only [Exec.ok.injEq, Prod.mk.injEq] at he
      exact .inr ⟨he.1.symm, he.2.symm⟩
    · rename_i hl
      rw [Exec.bind_eq_ok] at he
      obtain ⟨c', hc', he⟩ := he
      have hcl := content_ok_length hc'
      obtain ⟨d2, e2, hd2⟩ := h.assignContent hid hmax c' (by omega)
      simp only [e2, Exec.ok_bind, Exec.ok.injEq, Prod.mk.injEq] at he
      exact .inl ⟨he.1.symm, w, c', hw, hc', by omega, he.2 ▸ hd2⟩

/-! ## Boolean and Null -/

theorem encodedHeaderArray_eq {id : Ident} (hid : identOk id) {n : Nat} (hn : n ≤ 100) :
    encodedHeaderArray id n = tagged id .primitive (List.replicate n 0) := by
  have := Ident.encodedLength_lt id n
  rw [encodedHeaderArray, encodeHeaderId_fits _ _ _ _ hid (by omega)
    (by rw [List.length_replicate, Ident.encodedLength_eq]; omega), tagged_eq]
  simp [Ident.encodedLength_eq]

theorem tagged_last (id : Ident) (b : UInt8) :
    tagged id .primitive [b] = identHeader id .primitive 1 ++ [b] := by rw [tagged_eq]; rfl

theorem setBack_tagged (id : Ident) (a b : UInt8) :
    Boolean.setBack (tagged id .primitive [a]) b = tagged id .primitive [b] := by
  simp [Boolean.setBack, tagged_last]

theorem getLastD_tagged (id : Ident) (a : UInt8) : (tagged id .primitive [a]).getLastD 0 = a := by
  simp [tagged_last, List.getLastD_eq_getLast?]

theorem encodeArray_eq (d buf : Bytes) :
    encodeArray d buf = if d.length ≤ buf.length then (⟨true, d.length⟩, d ++ buf.drop d.length)
      else (⟨false, 0⟩, buf) := by
  unfold encodeArray
  by_cases h : d.length ≤ buf.length
  · rw [if_neg (by omega), if_pos h]; rfl
  · rw [if_pos (by omega), if_neg h]; rfl

theorem SaneView.content_length {w : BerView} (hs : SaneView w) (hw : w.valid = true) {c : Bytes}
    (hc : w.content = .ok c) : c.length = w.len := by
  rw [hs.content] at hc
  simp only [Exec.ok.injEq] at hc
  have := hs.bound hw
  rw [← hc, List.length_take, List.length_drop]; omega

theorem Boolean.decode_match {id : Ident} {d : Bytes} {v w : BerView} {b : UInt8} (hw : Matches v id .primitive w)
    (hc : w.content = .ok [b]) (hl : w.len = 1) : Boolean.decode id d v = .ok (true, Boolean.setBack d b) := by
  simp [Boolean.decode, hasCorrectHeader_true.mpr ⟨w, hw⟩, innerView_of_matches hw, hl, hc]

theorem Null.decode_match {id : Ident} {d : Bytes} {v w : BerView} (hw : Matches v id .primitive w)
    (hl : w.len = 0) : Null.decode id d v = .ok (true, d) := by
  simp [Null.decode, hasCorrectHeader_true.mpr ⟨w, hw⟩, innerView_of_matches hw, hl]

theorem Boolean.decode_cases (id : Ident) (d : Bytes) (v : BerView) (hs : SaneView v) :
    (∃ w b, Matches v id .primitive w ∧ w.content = .ok [b] ∧
        Boolean.decode id d v = .ok (true, Boolean.setBack d b)) ∨
    ((∀ w c, Matches v id .primitive w → w.content = .ok c → c.length ≠ 1) ∧
        Boolean.decode id d v = .ok (false, d)) := by
  rcases hasCorrectHeader_cases hs id .primitive with ⟨hh, w, hw⟩ | ⟨hh, hn⟩
  · have hsw := matches_sane hs hw
    have hwv := (matches_valid hw).2
    have hc := hsw.content
    have hlen := hsw.content_length hwv hc
    generalize (w.mem.drop w.hdr).take w.len = c at *
    by_cases hl : w.len = 1
    · obtain ⟨b, rfl⟩ : ∃ b, c = [b] := by
        rw [hl] at hlen; exact List.length_eq_one_iff.mp hlen
      exact .inl ⟨w, b, hw, hc, by simp [Boolean.decode, hh, innerView_of_matches hw, hl, hc]⟩
    · refine .inr ⟨fun w' c' hw' hc' => ?_, ?_⟩
      · rw [← matches_unique hw hw', hc] at hc'
        simp only [Exec.ok.injEq] at hc'
        subst hc'; omega
      · simp [Boolean.decode, hh, innerView_of_matches hw, hl]
  · exact .inr ⟨fun w _ hw => absurd hw (hn w), by simp [Boolean.decode, hh]⟩

theorem Null.decode_cases (id : Ident) (d : Bytes) (v : BerView) (hs : SaneView v) :
    (∃ w, Matches v id .primitive w ∧ w.content = .ok [] ∧ Null.decode id d v = .ok (true, d)) ∨
    ((∀ w c, Matches v id .primitive w → w.content = .ok c → c ≠ []) ∧
        Null.decode id d v = .ok (false, d)) := by
  rcases hasCorrectHeader_cases hs id .primitive with ⟨hh, w, hw⟩ | ⟨hh, hn⟩
  · have hsw := matches_sane hs hw
    have hwv := (matches_valid hw).2
    have hc := hsw.content
    have hlen := hsw.content_length hwv hc
    generalize (w.mem.drop w.hdr).take w.len = c at *
    by_cases hl : w.len = 0
    · obtain rfl : c = [] := by
        rw [hl] at hlen; exact List.length_eq_zero_iff.mp hlen
      exact .inl ⟨w, hw, hc, by simp [Null.decode, hh, innerView_of_matches hw, hl]⟩
    · refine .inr ⟨fun w' c' hw' hc' => ?_, ?_⟩
      · rw [← matches_unique hw hw', hc] at hc'
        simp only [Exec.ok.injEq] at hc'
        subst hc'; intro h0; rw [h0] at hlen; simp at hlen; omega
      · simp [Null.decode, hh, innerView_of_matches hw, hl]
  · exact .inr ⟨fun w _ hw => absurd hw (hn w), by simp [Null.decode, hh]⟩

end FastBer
