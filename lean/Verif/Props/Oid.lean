import Verif.Proofs.Oid
/-! # Properties C20-C23 and C64: OBJECT IDENTIFIER -/
namespace FastBer.Props
open FastBer Spec
set_option maxRecDepth 100000

/-- C20.  For every legal component list, `encode_object_id` (with the default or the correct
`encoded_length` argument) succeeds exactly when the buffer holds `encoded_object_id_length` bytes; it
writes the X.690 content octets, leaves the rest of the buffer alone, and `decode_object_id` of those
octets returns the same list. -/
theorem C20_oid_round_trip (oid : List Int) (h : legalOid oid) (out : Bytes) (len0 : Nat)
    (hlen : len0 = 0 ∨ len0 = encodedObjectIdLength oid) :
    encodedObjectIdLength oid = (oidContent oid).length ∧
    encodeObjectId out oid len0 = .ok (if encodedObjectIdLength oid ≤ out.length
      then (⟨true, encodedObjectIdLength oid⟩, oidContent oid ++ out.drop (oidContent oid).length)
      else (⟨false, 0⟩, out)) ∧
    decodeObjectId (oidContent oid) = (true, oid) := by
  refine ⟨encodedObjectIdLength_legal h, ?_, ?_⟩
  · rw [encodeObjectId_legal out oid h len0 hlen, encodedObjectIdLength_legal h]; rfl
  · match oid, h with
    | a :: b :: rest, h =>
      obtain ⟨h1, h2, h3, h4, hr⟩ := h
      simp only [oidContent, decodeObjectId, decodeOidLoop_zero, subidentifiers_flatMap, List.map_map,
        toNat_ofNat, Prod.mk.injEq, List.cons.injEq, true_and]
      have e : (40 * a + b).toNat % 256 = 40 * a.toNat + b.toNat := by omega
      rw [e]
      refine ⟨by omega, by omega, ?_⟩
      refine Eq.trans (List.map_congr_left ?_) (List.map_id rest)
      intro c hc
      obtain ⟨c1, c2⟩ := hr c hc
      simp only [Function.comp, value128_base128, wordToInt, id]
      rw [Nat.mod_eq_of_lt (by omega), if_pos (by omega)]
      omega

example : legalOid [1, 2, 840, 113549, 0, 9223372036854775807] := by
  simp [legalOid]
example : encodeObjectId [9, 9, 9, 9, 9, 9, 9, 9] [1, 2, 840, 113549] 0
    = .ok (⟨true, 6⟩, [0x2A, 0x86, 0x48, 0x86, 0xF7, 0x0D, 9, 9]) := by decide +kernel

/-- C20 (object).  Assigning a legal list to an `ObjectIdentifier` that holds any assigned content
succeeds, `value()` returns the list and the stored element is canonical — unless the resize inside
has undefined behaviour (it shrinks across a header size change, see C25). -/
theorem C20_assign_partial (id : Ident) (hid : identOk id) (c : Cont) (x : Bytes) (oid : List Int)
    (h : legalOid oid) (hx : id.encodedLength x.length < 2 ^ 64)
    (hn : id.encodedLength (oidContent oid).length < 2 ^ 64)
    (hs : ¬ ((oidContent oid).length < x.length ∧ id.headerLength (oidContent oid).length < id.headerLength x.length)) :
    ∃ c', Oid.assign id (Cont.assignContent id c x) oid = .ok (true, c') ∧ Oid.value c' = .ok oid ∧
      c'.data = tagged id .primitive (oidContent oid) := by
  have hel := encodedObjectIdLength_legal h
  have hr : ∃ y, y.length = (oidContent oid).length ∧
      Cont.resizeContent id (Cont.assignContent id c x) (encodedObjectIdLength oid) =
        .ok ⟨tagged id .primitive y, (oidContent oid).length⟩ := by
    rw [hel]
    have h0 := assignContent_canon hid c x hx
    have hlen := length_tagged hid .primitive x hx
    rw [Ident.encodedLength_eq] at hlen
    rw [h0]
    obtain ⟨y, c', e, hc', hyl, _⟩ := resizeContent_ok hid ⟨tagged id .primitive x, x.length⟩
      (oidContent oid).length hn (by simp only; omega) (by
        simp only
        rcases Nat.lt_or_ge (oidContent oid).length x.length with h1 | h1
        · omega
        · have hm : id.encodedLength x.length ≤ id.encodedLength (oidContent oid).length := by
            cases id with
            | single i =>
              have := encodedLengthLength_mono h1
              simp only [Ident.encodedLength, Id.encodedLength, Id.headerLength]; omega
            | double o i =>
              have h2 := encodedLengthLength_mono h1
              have h3 : i.encodedLength x.length ≤ i.encodedLength (oidContent oid).length := by
                simp only [Id.encodedLength, Id.headerLength]; omega
              have := encodedLengthLength_mono h3
              simp only [Ident.encodedLength]
              generalize hA : i.encodedLength x.length = A at *
              generalize hB : i.encodedLength (oidContent oid).length = B at *
              simp only [Id.encodedLength, Id.headerLength]; omega
          rw [Ident.encodedLength_eq, Ident.encodedLength_eq] at hm
          omega)
    exact ⟨y, hyl, by rw [e, hc', hyl]⟩
  obtain ⟨y, hy, hr⟩ := hr
  have hc := ContCanon.content (id := id) (x := y) (c := ⟨tagged id .primitive y, (oidContent oid).length⟩)
    (by rw [← hy]; rfl)
  have henc := encodeObjectId_legal y oid h (encodedObjectIdLength oid) (.inr rfl)
  rw [if_pos (by omega), List.drop_eq_nil_of_le (by omega), List.append_nil] at henc
  have hlt := length_tagged' id .primitive y
  have hw : writeAt (tagged id .primitive y) ((tagged id .primitive y).length - (oidContent oid).length) (oidContent oid)
      = tagged id .primitive (oidContent oid) := by
    rw [hlt, hy, Nat.add_sub_cancel, writeAt, tagged_eq, tagged_eq, hy, List.take_left, List.drop_eq_nil_of_le
      (by rw [List.length_append, hy]; omega), List.append_nil]
  refine ⟨⟨tagged id .primitive (oidContent oid), (oidContent oid).length⟩, ?_, ?_, rfl⟩
  · simp only [Oid.assign, hr, hc, henc, Exec.ok_bind, hw]
  · rw [Oid.value, ContCanon.content (id := id) (x := oidContent oid) rfl, Exec.ok_bind,
      (C20_oid_round_trip oid h [] 0 (.inl rfl)).2.2]

example : Oid.assign (.single ⟨.universal, 6⟩) (Cont.assignContent (.single ⟨.universal, 6⟩)
    (Cont.default (.single ⟨.universal, 6⟩)) [0x2A]) [1, 2, 840] = .ok (true, ⟨[6, 3, 0x2A, 0x86, 0x48], 3⟩) := by
  decide +kernel

/-- C21 is false of the code: a negative first component is encoded. -/
theorem C21_violated : ∃ (oid : List Int) (out out' : Bytes), ¬ legalOid oid ∧
    encodeObjectId out oid 0 = .ok (⟨true, 1⟩, out') :=
  ⟨[-1, 5], [9], [0xDD], by simp [legalOid], by decide +kernel⟩

/-- C21 is false of the code in a second way: a first component of -2^60 overflows `int64_t`. -/
theorem C21_violated_overflow : ∃ (oid : List Int) (out : Bytes), (∀ c ∈ oid, -2 ^ 63 ≤ c ∧ c < 2 ^ 63) ∧
    encodeObjectId out oid 0 = .ub := ⟨[-2 ^ 60, 0], [9], by decide, by decide +kernel⟩

theorem length_oidWrite (c : Nat) : ∀ (out : Bytes) (pos : Nat) (first : Bool) (out' : Bytes) (pos' : Nat),
    oidWrite out pos first c = .ok (out', pos') → out'.length = out.length := by
  induction c using Nat.strongRecOn with
  | ind c ih =>
    intro out pos first out' pos' h
    rw [oidWrite] at h
    split at h
    · simp only at h
      split at h
      · rename_i hc
        have := ih (c / 128) (by omega) _ _ _ _ _ h
        simpa using this
      · simp only [Exec.ok.injEq, Prod.mk.injEq] at h
        rw [← h.1]; simp
    · cases h

theorem oidCount_neg {c : Int} (h : c < 0) : oidCount c = 1 := by
  rw [oidCount, if_neg]
  have h2 : (-c).tdiv 128 = -(c.tdiv 128) := Int.neg_tdiv ..
  rw [Int.tdiv_eq_ediv_of_nonneg (show 0 ≤ -c by omega)] at h2
  omega

/-- The loop with some negative component fails without leaving the buffer. -/
theorem oidLoop_negative (cs : List Int) : ∀ (pre hole post : Bytes), (∃ c ∈ cs, c < 0) →
    hole.length = (cs.map oidCount).sum →
    ∃ out', oidLoop (pre ++ hole ++ post) (decPos (pre.length + hole.length)) cs = .ok (false, out') ∧
      out'.length = (pre ++ hole ++ post).length ∧ ∃ mid, out' = pre ++ mid ++ post := by
  induction cs with
  | nil => rintro pre hole post ⟨c, hc, _⟩; simp at hc
  | cons c cs ih =>
    intro pre hole post hneg hl
    by_cases hc : c < 0
    · exact ⟨pre ++ hole ++ post, by rw [oidLoop, if_pos hc], rfl, hole, rfl⟩
    · have hneg' : ∃ c ∈ cs, c < 0 := by
        obtain ⟨x, hx, hx0⟩ := hneg
        rcases List.mem_cons.mp hx with rfl | hx
        · exact absurd hx0 hc
        · exact ⟨x, hx, hx0⟩
      rw [oidLoop, if_neg hc]
      simp only [List.map_cons, List.sum_cons] at hl
      have hcc : oidCount c = (base128 c.toNat).length := by
        rw [← oidCount_nonneg]; congr 1; omega
      have hs : hole = hole.take (cs.map oidCount).sum ++ hole.drop (cs.map oidCount).sum :=
        (List.take_append_drop _ _).symm
      generalize hA : hole.take (cs.map oidCount).sum = A at hs
      generalize hB : hole.drop (cs.map oidCount).sum = B at hs
      have hAl : A.length = (cs.map oidCount).sum := by rw [← hA, List.length_take]; omega
      have hBl : B.length = (base128 c.toNat).length := by rw [← hB, List.length_drop]; omega
      subst hs
      have := oidWrite_spec c.toNat (pre ++ A) B post true (by simp) hBl
      simp only [List.length_append, List.append_assoc, Nat.add_assoc] at this
      simp only [List.append_assoc, List.length_append, this, Exec.ok_bind]
      obtain ⟨out', e, el, mid, em⟩ := ih pre A (oidDigits true c.toNat ++ post) hneg' hAl
      simp only [List.append_assoc] at e
      refine ⟨out', e, ?_, mid ++ oidDigits true c.toNat, ?_⟩
      · rw [el]; simp [oidDigits, hBl]
      · rw [em]; simp

/-- C21 (partial).  Every illegal list is rejected with result 0 and without touching memory outside
the buffer, except those whose first two components are in range but negative.  Missing: lists with a
negative first or second component (accepted or undefined, see the violations). -/
theorem C21_oid_validation_partial (oid : List Int) (hbad : ¬ legalOid oid) (out : Bytes)
    (h64 : ∀ c ∈ oid, -2 ^ 63 ≤ c ∧ c < 2 ^ 63)
    (hpos : ∀ a b rest, oid = a :: b :: rest → 0 ≤ a ∧ 0 ≤ b) :
    ∃ out', encodeObjectId out oid 0 = .ok (⟨false, 0⟩, out') ∧ out'.length = out.length := by
  match oid with
  | [] => exact ⟨out, rfl, rfl⟩
  | [a] => exact ⟨out, rfl, rfl⟩
  | a :: b :: rest =>
    obtain ⟨ha, hb⟩ := hpos a b rest rfl
    simp only [encodeObjectId, if_true]
    split
    · exact ⟨out, rfl, rfl⟩
    · rename_i hc
      rw [if_neg (by omega)]
      have hneg : ∃ c ∈ rest.reverse, c < 0 := by
        apply Classical.byContradiction
        intro hno
        apply hbad
        refine ⟨ha, by omega, hb, by omega, fun c hc' => ⟨?_, (h64 c (by simp [hc'])).2⟩⟩
        rcases Int.lt_or_le c 0 with h | h
        · exact absurd ⟨c, by simpa using hc', h⟩ hno
        · exact h
      have hlen : encodedObjectIdLength (a :: b :: rest) = 1 + (rest.map oidCount).sum := by
        simp only [encodedObjectIdLength, List.length_cons, List.drop_succ_cons, List.drop_zero]
        rw [if_neg (by omega)]
      rw [hlen] at hc ⊢
      cases out with
      | nil => simp at hc
      | cons x out =>
        simp only [List.length_cons] at hc
        have hf : (rest.map oidCount).sum ≤ out.length := by omega
        obtain ⟨out', e, el, _⟩ := oidLoop_negative rest.reverse [UInt8.ofNat ((40 * a + b) % 256).toNat]
          (out.take (rest.map oidCount).sum) (out.drop (rest.map oidCount).sum) hneg
          (by rw [List.length_take, Nat.min_eq_left hf, List.map_reverse, List.sum_reverse])
        rw [List.append_assoc, List.take_append_drop, List.length_take, Nat.min_eq_left hf] at e
        simp only [List.length_cons, List.length_nil, List.cons_append, List.nil_append] at e
        refine ⟨out', ?_, ?_⟩
        · simp only [List.set_cons_zero]
          rw [show 1 + (rest.map oidCount).sum = 0 + 1 + (rest.map oidCount).sum by omega, e]
          rfl
        · rw [el]; simp

example : ¬ legalOid [1, 2, -3] := by simp [legalOid]

/-- C22 (number of components).  On every content `get_number_of_components` is the length of the
list `decode_object_id` produces. -/
theorem C22_number_of_components (content : Bytes) :
    getNumberOfComponents content = (decodeObjectId content).2.length := by
  cases content with
  | nil => rfl
  | cons b rest =>
    simp only [getNumberOfComponents, decodeObjectId, List.length_cons]
    have : ∀ (rest : Bytes) cur, (decodeOidLoop cur rest).length
        = (rest.filter (fun b => (b &&& 0x80) == 0)).length := by
      intro rest
      induction rest with
      | nil => intro _; rfl
      | cons b rest ih =>
        intro cur
        rw [decodeOidLoop, List.filter_cons]
        by_cases hb : (b &&& 0x80) = 0
        · simp [hb, ih]
        · simp [hb, ih]
    rw [this]; omega

/-- C22 is false of the code: for 1.2.840 the accessor says 4, not 2, for index 1 … -/
theorem C22_violated_index1 : decodeObjectId [0x2A, 0x86, 0x48] = (true, [1, 2, 840]) ∧
    getComponentNumber [0x2A, 0x86, 0x48] 1 = .ok 14 := by decide +kernel
/-- … reads past the content of the two-component identifier 1.2 … -/
theorem C22_violated_ub : decodeObjectId [0x2A] = (true, [1, 2]) ∧ getComponentNumber [0x2A] 1 = .ub := by
  decide +kernel
/-- … and for every later index it answers 0 whatever the component is. -/
theorem C22_violated_later (b : UInt8) (rest : Bytes) (i : Nat) (hi : 2 ≤ i)
    (hlt : i < (decodeObjectId (b :: rest)).2.length) : getComponentNumber (b :: rest) i = .ok 0 := by
  have : ∀ (rest : Bytes) cur cur2 idx, idx ≤ i → i < idx + (decodeOidLoop cur2 rest).length →
      componentLoop cur idx i rest = 0 := by
    intro rest
    induction rest with
    | nil => intro cur cur2 idx h1 h2; simp [decodeOidLoop] at h2; omega
    | cons b rest ih =>
      intro cur cur2 idx h1 h2
      rw [componentLoop]
      rw [decodeOidLoop] at h2
      by_cases hb : (b &&& 0x80) = 0
      · simp only [hb, ne_eq, not_true, if_false] at h2 ⊢
        split
        · rfl
        · exact ih _ 0 _ (by omega) (by simp at h2; omega)
      · simp only [ne_eq, hb, not_false_eq_true, if_true] at h2 ⊢
        exact ih _ _ _ h1 h2
  simp only [getComponentNumber]
  rw [if_neg (by omega), if_neg (by omega)]
  rw [this rest 0 0 2 hi (by simp [decodeObjectId] at hlt; omega)]

/-- C22 (partial).  Only index 0 is right. -/
theorem C22_component_partial (content : Bytes) (c : Int) (h : (decodeObjectId content).2[0]? = some c) :
    getComponentNumber content 0 = .ok c := by
  cases content with
  | nil => simp [decodeObjectId] at h
  | cons b rest => simp [decodeObjectId] at h; simp [getComponentNumber, h]

/-- C23.  `decode_object_id` is total on arbitrary content; it fails exactly on empty content; the
result is the first octet split by 40 followed by one value per complete base-128 group, each reduced
to a 64-bit two's complement word; an unfinished last group is ignored. -/
theorem C23_decode_oid_total (content : Bytes) :
    ((decodeObjectId content).1 = true ↔ content ≠ []) ∧
    (content = [] → (decodeObjectId content).2 = []) ∧
    ∀ b rest, content = b :: rest → (decodeObjectId content).2 =
      ((b.toNat / 40 : Nat) : Int) :: ((b.toNat % 40 : Nat) : Int) ::
        (subidentifiers [] rest).map (fun s => wordToInt (value128 s)) := by
  refine ⟨?_, ?_, ?_⟩
  · cases content <;> simp [decodeObjectId]
  · rintro rfl; rfl
  · rintro b rest rfl
    rw [decodeObjectId, decodeOidLoop_zero]

/-- C64 is false of the code: the content of 2.100.3 decodes to something else (the first
subidentifier is not limited to one octet, X.690 8.19.4). -/
theorem C64_violated : oidComponents [0x81, 0x34, 0x03] = [2, 100, 3] ∧
    decodeObjectId [0x81, 0x34, 0x03] = (true, [3, 9, 52, 3]) := by decide +kernel

/-- C64 is false of the code also for one-octet first subidentifiers 120..127 (2.40 .. 2.47). -/
theorem C64_violated_one_octet : oidComponents [0x78] = [2, 40] ∧ decodeObjectId [0x78] = (true, [3, 0]) := by
  decide +kernel

/-- C64 (partial).  When the first octet is below 120 and all subidentifiers fit `int64_t`, decoding
gives the components X.690 prescribes.  Missing: first octet ≥ 120. -/
theorem C64_decode_x690_partial (b : UInt8) (rest : Bytes) (hb : b.toNat < 120)
    (hs : ∀ s ∈ subidentifiers [] rest, value128 s < 2 ^ 63) :
    decodeObjectId (b :: rest) = (true, oidComponents (b :: rest)) := by
  have hsub : subidentifiers [] (b :: rest) = [b] :: subidentifiers [] rest := by
    rw [subidentifiers, if_neg (by omega)]; rfl
  have hv : value128 [b] = b.toNat := by
    simp only [value128, List.foldl_cons, List.foldl_nil]; omega
  rw [decodeObjectId, decodeOidLoop_zero, oidComponents, hsub]
  simp only [hv, Prod.mk.injEq, List.cons.injEq, true_and]
  refine ⟨?_, ?_, ?_⟩
  · simp only [splitFirst]; repeat' split
    all_goals simp only
    all_goals omega
  · simp only [splitFirst]; repeat' split
    all_goals simp only
    all_goals omega
  · apply List.map_congr_left
    intro s h
    have := hs s h
    rw [wordToInt, Nat.mod_eq_of_lt (by omega), if_pos (by omega)]

example : ((0x2A : UInt8).toNat < 120) ∧ (subidentifiers [] [0x86, 0x48, 0x03]) = [[0x86, 0x48], [0x03]] := by
  decide +kernel

end FastBer.Props
