import Verif.Model.Container
import Verif.Proofs.Small
/-! # Lemmas about the variable-size container -/
namespace FastBer
open Spec

theorem length_vecResize (d : Bytes) (n : Nat) : (vecResize d n).length = n := by
  simp [vecResize]; omega

theorem ite_mono {P Q : Prop} [Decidable P] [Decidable Q] {k k' fa fb : Nat} (hQP : Q → P) (hk : k ≤ k')
    (h : fa ≤ fb ∧ k' ≤ fb) : (if P then k else fa) ≤ (if Q then k else fb) ∧ k ≤ (if Q then k else fb) := by
  by_cases hq : Q
  · simp [hq, hQP hq]
  · by_cases hp : P <;> simp [hq, hp] <;> omega

theorem encodedLengthLength_mono {a b : Nat} (hab : a ≤ b) : encodedLengthLength a ≤ encodedLengthLength b := by
  unfold encodedLengthLength
  refine (ite_mono (k' := 2) (by omega) (by omega) ?_).1
  refine ite_mono (k' := 3) (by omega) (by omega) ?_
  refine ite_mono (k' := 4) (by omega) (by omega) ?_
  refine ite_mono (k' := 5) (by omega) (by omega) ?_
  refine ite_mono (k' := 6) (by omega) (by omega) ?_
  refine ite_mono (k' := 7) (by omega) (by omega) ?_
  refine ite_mono (k' := 8) (by omega) (by omega) ?_
  exact ite_mono (k' := 9) (by omega) (by omega) ⟨by omega, by omega⟩
/-- Canonical state: exactly the element with the given content. -/
def ContCanon (id : Ident) (content : Bytes) (c : Cont) : Prop :=
  c = ⟨tagged id .primitive content, content.length⟩

/-- Well-formed state: the storage is exactly one element carrying the identifier (any valid length
form), and the recorded length is that of the (inner) element's content. -/
def ContWf (id : Ident) (c : Cont) : Prop :=
  ∃ v w, BerView.parse c.data = .ok v ∧ Matches v id .primitive w ∧ v.hdr + v.len = c.data.length ∧
    c.data.length < 2 ^ 64 ∧ c.len = w.len ∧ w.len ≤ c.data.length

theorem length_tagged' (id : Ident) (k : Construction) (content : Bytes) :
    (tagged id k content).length = (identHeader id k content.length).length + content.length := by
  rw [tagged_eq, List.length_append]

theorem ContCanon.content {id : Ident} {x : Bytes} {c : Cont} (h : ContCanon id x c) : c.content = .ok x := by
  subst h
  have := length_tagged' id .primitive x
  simp only [Cont.content]
  rw [if_pos (by omega), tagged_eq, List.length_append, Nat.add_sub_cancel, List.drop_left]

theorem taggedView_hdr_len (id : Ident) (k : Construction) (content suffix : Bytes) :
    (taggedView id k content suffix).hdr + (taggedView id k content suffix).len = (tagged id k content).length ∧
    (taggedView id k content suffix).valid = true ∧
    (taggedView id k content suffix).mem = tagged id k content ++ suffix := by
  cases id with
  | single i => simp [taggedView, elementView, tagged, elementId, element]
  | double o i => simp [taggedView, elementView, tagged, elementId, element]

theorem ContCanon.wf {id : Ident} (hid : identOk id) {x : Bytes} {c : Cont} (h : ContCanon id x c)
    (hl : (tagged id .primitive x).length < 2 ^ 64) : ContWf id c := by
  subst h
  have hp := assign_tagged id hid .primitive x [] 0 hl
  rw [List.append_nil] at hp
  obtain ⟨w, hw, hc, hwl⟩ := matches_tagged id hid .primitive x [] hl
  have hh := taggedView_hdr_len id .primitive x []
  have := length_tagged' id .primitive x
  exact ⟨_, w, hp, hw, hh.1, hl, hwl.symm, by simp only; omega⟩

theorem writeAt_drop_all (d x : Bytes) (n : Nat) (h : d.length = n + x.length) :
    (writeAt d n x).drop n = x := by
  rw [drop_writeAt (by omega), List.drop_eq_nil_of_le (by omega), List.append_nil]

theorem assignContent_canon {id : Ident} (hid : identOk id) (c : Cont) (x : Bytes)
    (hl : id.encodedLength x.length < 2 ^ 64) : ContCanon id x (Cont.assignContent id c x) := by
  have he := Ident.encodedLength_eq id x.length
  have hv := length_vecResize c.data (id.encodedLength x.length)
  have hw : (writeAt (vecResize c.data (id.encodedLength x.length)) (id.headerLength x.length) x).length =
      id.headerLength x.length + x.length := by rw [length_writeAt (by omega)]; omega
  simp only [ContCanon, Cont.assignContent]
  rw [show id.encodedLength x.length - x.length = id.headerLength x.length by omega]
  rw [encodeHeaderId_fits _ _ _ _ hid hl (by omega)]
  simp only
  rw [writeAt_drop_all _ _ _ (by omega), tagged_eq]

theorem default_canon {id : Ident} (hid : identOk id) : ContCanon id [] (Cont.default id) := by
  have := Ident.encodedLength_lt id 0
  have he := Ident.encodedLength_eq id 0
  have hv := length_vecResize [] (id.encodedLength 0)
  simp only [ContCanon, Cont.default]
  rw [encodeHeaderId_fits _ _ _ _ hid (by omega) (by omega), tagged_eq]
  simp only
  rw [List.drop_eq_nil_of_le (by omega)]
  simp

/-- Exact result of `resize_content` whenever it stays inside the vector. -/
theorem resizeContent_ok {id : Ident} (hid : identOk id) (c : Cont) (n : Nat)
    (hl : id.encodedLength n < 2 ^ 64) (hc : c.len ≤ c.data.length)
    (hs : c.data.length - c.len + min c.len n ≤ id.headerLength n + n) :
    ∃ x c', Cont.resizeContent id c n = .ok c' ∧ ContCanon id x c' ∧ x.length = n ∧
      x.take (min c.len n) = ((c.data.drop (c.data.length - c.len)).take (min c.len n)) ∧
      (c.data.length - c.len ≤ id.headerLength n → x.drop (min c.len n) = List.replicate (n - c.len) 0) := by
  have he := Ident.encodedLength_eq id n
  have hv := length_vecResize c.data (id.headerLength n + n)
  have hmin : min c.len n ≤ c.len ∧ min c.len n ≤ n := ⟨Nat.min_le_left _ _, Nat.min_le_right _ _⟩
  have hml : (((vecResize c.data (id.headerLength n + n)).drop (c.data.length - c.len)).take (min c.len n)).length
      = min c.len n := by rw [List.length_take, List.length_drop]; omega
  have hsrc : ((vecResize c.data (id.headerLength n + n)).drop (c.data.length - c.len)).take (min c.len n)
      = (c.data.drop (c.data.length - c.len)).take (min c.len n) := by
    rw [vecResize, List.drop_append_of_le_length (by rw [List.length_take]; omega),
      List.take_append_of_le_length (by rw [List.length_drop, List.length_take]; omega),
      List.drop_take, List.take_take]
    congr 1; omega
  have hxl : (List.drop (id.headerLength n) (writeAt (vecResize c.data (id.headerLength n + n)) (id.headerLength n)
      (((vecResize c.data (id.headerLength n + n)).drop (c.data.length - c.len)).take (min c.len n)))).length = n := by
    rw [List.length_drop, length_writeAt (by omega)]; omega
  refine ⟨(writeAt (vecResize c.data (id.headerLength n + n)) (id.headerLength n)
    (((vecResize c.data (id.headerLength n + n)).drop (c.data.length - c.len)).take (min c.len n))).drop
      (id.headerLength n), ⟨tagged id .primitive ((writeAt (vecResize c.data (id.headerLength n + n)) (id.headerLength n)
    (((vecResize c.data (id.headerLength n + n)).drop (c.data.length - c.len)).take (min c.len n))).drop
      (id.headerLength n)), n⟩, ?_, ?_, hxl, ?_, ?_⟩
  · simp only [Cont.resizeContent]
    rw [if_neg (by omega), if_pos (by omega),
      encodeHeaderId_fits _ _ _ _ hid hl (by rw [length_writeAt (by omega)]; omega), tagged_eq, hxl]
  · rw [ContCanon, hxl]
  · rw [drop_writeAt (by omega), List.take_append_of_le_length (by omega), List.take_of_length_le (by omega), hsrc]
  · intro hle
    rw [drop_writeAt (by omega), hml, List.drop_append_of_le_length (by omega),
      List.drop_eq_nil_of_le (by omega), List.nil_append, vecResize, List.drop_append,
      List.drop_eq_nil_of_le (by rw [List.length_take]; omega), List.nil_append, List.length_take]
    rw [List.drop_replicate]
    congr 1; omega

/-! ## decode -/

theorem assign_exact {bs : Bytes} {tag0 : Int} {v : BerView} (h : BerView.assign bs tag0 = .ok v)
    (hv : v.valid = true) (hw : v.hdr + v.len < 2 ^ 64) (tag1 : Int) :
    BerView.assign (bs.take (v.hdr + v.len)) tag1 = .ok { v with mem := bs.take (v.hdr + v.len) } := by
  obtain ⟨hm, h2, hh, hl, hb, tagLen, lenLen, e1, e2, e3, p1, p2⟩ := assign_valid h hv
  rw [BerView.berLength, u64_of_lt hw] at hb
  rcases extractTag_ok _ _ _ _ e1 with h0 | ⟨hle, a1, a2⟩
  · omega
  rcases extractLength_ok _ _ _ _ _ e2 with h0 | ⟨hle2, _, _, _, b1, b2⟩
  · omega
  have ht : extractTag (bs.take (v.hdr + v.len)) tag1 = .ok (tagLen, v.tag) := by
    rw [take_split bs tagLen _ (by omega)]; exact a1 _ _
  have hl2 : extractLength (bs.take (v.hdr + v.len)) 0 tagLen = .ok (lenLen, v.len) := by
    rw [take_split bs (tagLen + lenLen) _ (by omega)]; exact b1 _
  unfold BerView.assign
  rw [ht]; simp only [Exec.ok_bind]
  rw [hl2]; simp only [Exec.ok_bind]
  rw [if_neg (by rw [← e3, u64_of_lt hw, List.length_take]; omega)]
  cases v; simp_all

theorem matches_trunc {v w : BerView} {id : Ident} {k : Construction} (h : Matches v id k w)
    (hb : 2 ≤ v.hdr ∧ v.hdr + v.len ≤ v.mem.length) :
    ∃ w', Matches { v with mem := v.mem.take (v.hdr + v.len) } id k w' ∧ w'.len = w.len ∧
      w'.content = w.content := by
  have hcont : BerView.content { v with mem := v.mem.take (v.hdr + v.len) } = v.content := by
    simp only [BerView.content, List.length_take]
    rw [if_pos (by omega), if_pos hb.2, List.drop_take, List.take_take]
    congr 2; omega
  have hcls : BerView.cls { v with mem := v.mem.take (v.hdr + v.len) } = v.cls := by
    simp only [BerView.cls]
    cases hm : v.mem with
    | nil => simp
    | cons b r => obtain ⟨n, hn⟩ : ∃ n, v.hdr + v.len = n + 1 := ⟨v.hdr + v.len - 1, by omega⟩
                  rw [hn]; rfl
  have hk : BerView.construction { v with mem := v.mem.take (v.hdr + v.len) } = v.construction := by
    simp only [BerView.construction]
    cases hm : v.mem with
    | nil => simp
    | cons b r => obtain ⟨n, hn⟩ : ∃ n, v.hdr + v.len = n + 1 := ⟨v.hdr + v.len - 1, by omega⟩
                  rw [hn]; rfl
  have hi : BerView.identifier { v with mem := v.mem.take (v.hdr + v.len) } = v.identifier := by
    simp only [BerView.identifier, hcls]
  cases id with
  | single i =>
    obtain ⟨h1, h2, h3, rfl⟩ := h
    exact ⟨_, ⟨h1, by rw [hi]; exact h2, by rw [hk]; exact h3, rfl⟩, rfl, hcont⟩
  | double o i =>
    obtain ⟨h1, h2, h3, c, hc, hr⟩ := h
    exact ⟨w, ⟨h1, by rw [hi]; exact h2, by rw [hk]; exact h3, c, by rw [hcont]; exact hc, hr⟩, rfl, rfl⟩

theorem matches_len_le {v w : BerView} {id : Ident} {k : Construction} (hs : SaneView v) (h : Matches v id k w) :
    w.len ≤ v.hdr + v.len ∧ v.hdr + w.len ≤ v.hdr + v.len := by
  have hb := hs.bound (matches_valid h).1
  cases id with
  | single i => obtain ⟨_, _, _, rfl⟩ := h; omega
  | double o i =>
    have hsw := matches_sane hs h
    have hwb := hsw.bound (matches_valid h).2
    obtain ⟨_, _, _, c, hc, hw, hwv, _⟩ := h
    obtain ⟨hm, _⟩ := assign_valid hw hwv
    rw [hs.content] at hc
    simp only [Exec.ok.injEq] at hc
    have : w.mem.length ≤ v.len := by rw [hm, ← hc, List.length_take]; omega
    omega

theorem SaneView.ber {v : BerView} (h : SaneView v) (hv : v.valid = true) :
    v.ber = .ok (v.mem.take (v.hdr + v.len)) := by
  rw [BerView.ber, h.berLength, if_pos (h.bound hv).2.1]

theorem decodeError_safe {v : BerView} (hs : SaneView v) (id : Ident) : Cont.decodeError v id = .ok () := by
  cases id with
  | single i =>
    cases hv : v.valid with
    | false => simp [Cont.decodeError, hv]
    | true => obtain ⟨c, _, hi⟩ := hs.identifier hv; simp [Cont.decodeError, hv, hi]
  | double o i =>
    cases hv : v.valid with
    | false => simp [Cont.decodeError, hv]
    | true =>
      obtain ⟨c, _, hi⟩ := hs.identifier hv
      obtain ⟨w, hw⟩ := hs.peek hv
      have hb : v.begin = .ok ⟨(v.mem.drop v.hdr).take v.len, w⟩ := by simp [BerView.begin, hs.content, Iter.mk', hw]
      cases hwv : w.valid with
      | false => simp [Cont.decodeError, hv, hb, hwv]
      | true =>
        have hm := (assign_valid hw hwv).1
        have hl : 2 ≤ w.hdr ∧ w.hdr ≤ w.mem.length := by
          have := assign_valid hw hwv; rw [hm]; exact ⟨this.2.1, this.2.2.1⟩
        obtain ⟨c2, hc2⟩ : ∃ c, w.identifier = .ok c := by
          cases hmm : w.mem with
          | nil => rw [hmm] at hl; simp at hl; omega
          | cons b r => exact ⟨⟨getClass b, w.tag⟩, by simp [BerView.identifier, BerView.cls, hmm]⟩
        simp [Cont.decodeError, hv, hb, hwv, hi, hc2]

/-- Exact outcome of `decode` on a sane view. -/
theorem Cont.decode_cases (id : Ident) (c : Cont) (v : BerView) (hs : SaneView v) :
    (∃ w, Matches v id .primitive w ∧
        Cont.decode id c v = .ok (true, ⟨v.mem.take (v.hdr + v.len), w.len⟩)) ∨
    ((∀ w, ¬ Matches v id .primitive w) ∧ Cont.decode id c v = .ok (false, c)) := by
  rcases hasCorrectHeader_cases hs id .primitive with ⟨hh, w, hw⟩ | ⟨hh, hn⟩
  · refine .inl ⟨w, hw, ?_⟩
    simp [Cont.decode, hh, hs.ber (matches_valid hw).1, innerView_of_matches hw]
  · refine .inr ⟨hn, ?_⟩
    simp [Cont.decode, hh, decodeError_safe hs id]

theorem decode_wf {id : Ident} {v w : BerView} (hs : SaneView v) (hw : Matches v id .primitive w)
    (hp : ∃ bs tag0, BerView.assign bs tag0 = .ok v) : ContWf id ⟨v.mem.take (v.hdr + v.len), w.len⟩ := by
  obtain ⟨bs, tag0, hp⟩ := hp
  have hv := (matches_valid hw).1
  have hb := hs.bound hv
  obtain ⟨hm, _⟩ := assign_valid hp hv
  have he := assign_exact hp hv hb.2.2 0
  rw [← hm] at he
  obtain ⟨w', hw', hl', _⟩ := matches_trunc hw ⟨hb.1, hb.2.1⟩
  have := matches_len_le hs hw
  refine ⟨_, w', he, hw', ?_, ?_, hl'.symm, ?_⟩
  all_goals simp only [List.length_take]
  all_goals omega

theorem ContWf.content {id : Ident} {c : Cont} (h : ContWf id c) :
    c.content = .ok (c.data.drop (c.data.length - c.len)) := by
  obtain ⟨v, w, _, _, _, _, h5, h6⟩ := h
  rw [Cont.content, if_pos (by omega)]

end FastBer
