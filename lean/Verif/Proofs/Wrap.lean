import Verif.Proofs.View
/-! # Lemmas: encode_header for identifiers, wrap_with_ber_header, has_correct_header -/
namespace FastBer
open Spec
set_option linter.unusedSimpArgs false

theorem tagged_eq (id : Ident) (k : Construction) (content : Bytes) :
    tagged id k content = identHeader id k content.length ++ content := by
  cases id <;> simp [tagged, identHeader, elementId, element]

theorem natCast_toNat {i : Id} (h : idOk i) : ((i.tag.toNat : Nat) : Int) = i.tag := by
  have := h.1; omega

theorem toNat_lt {i : Id} (h : idOk i) : i.tag.toNat < 2 ^ 63 := by
  have := h.1; have := h.2; omega

theorem length_headerId {i : Id} (h : idOk i) (k : Construction) (n : Nat) (hn : n < 2 ^ 64) :
    (header i.cls k i.tag.toNat n).length = i.headerLength n := by
  rw [length_header _ _ _ _ (toNat_lt h) hn]
  simp [Id.headerLength, natCast_toNat h]

theorem headerLength_le (i : Id) (n : Nat) : i.headerLength n ≤ 19 := by
  have h1 : encodedTagLength i.tag ≤ 10 := by
    unfold encodedTagLength; repeat' split
    all_goals omega
  have h2 : encodedLengthLength n ≤ 9 := by
    unfold encodedLengthLength; repeat' split
    all_goals omega
  unfold Id.headerLength; omega

theorem length_identHeader {id : Ident} (h : identOk id) (k : Construction) (n : Nat)
    (hn : id.encodedLength n < 2 ^ 64) :
    (identHeader id k n).length = id.headerLength n := by
  cases id with
  | single i =>
    simp only [Ident.encodedLength, Id.encodedLength] at hn
    exact length_headerId h k n (by omega)
  | double o i =>
    simp only [Ident.encodedLength, Id.encodedLength] at hn
    simp only [identHeader, Ident.headerLength, List.length_append, Id.encodedLength]
    rw [length_headerId h.2 k n (by omega), length_headerId h.1 _ _ (by omega)]

theorem Ident.encodedLength_eq (id : Ident) (n : Nat) : id.encodedLength n = id.headerLength n + n := by
  cases id <;> simp [Ident.encodedLength, Ident.headerLength, Id.encodedLength] <;> omega

theorem length_tagged {id : Ident} (h : identOk id) (k : Construction) (content : Bytes)
    (hn : id.encodedLength content.length < 2 ^ 64) :
    (tagged id k content).length = id.encodedLength content.length := by
  rw [tagged_eq, List.length_append, length_identHeader h k _ hn, Ident.encodedLength_eq]

theorem Id.headerLength_pos {i : Id} (h : idOk i) (n : Nat) : 2 ≤ i.headerLength n := by
  have h1 := encodedTagLength_pos h.1
  have h2 := encodedLengthLength_pos n
  simp only [Id.headerLength]; omega

theorem Ident.headerLength_pos {i : Ident} (h : identOk i) (n : Nat) : 2 ≤ i.headerLength n := by
  cases i with
  | single i => exact Id.headerLength_pos h n
  | double o i =>
    have := Id.headerLength_pos h.1 (i.encodedLength n)
    simp only [Ident.headerLength]; omega

theorem encodeHeaderSingle_fits (buf : Bytes) (n : Nat) (i : Id) (k : Construction) (h : idOk i)
    (hn : n < 2 ^ 64) (hb : i.headerLength n ≤ buf.length) :
    encodeHeaderSingle buf n i k =
      (⟨true, i.headerLength n + n⟩, header i.cls k i.tag.toNat n ++ buf.drop (i.headerLength n)) := by
  have hl := length_headerId h k n hn
  have := encodeHeader_fits buf k i.cls i.tag.toNat n (toNat_lt h) hn (by omega)
  rw [natCast_toNat h] at this
  have hp := Id.headerLength_pos h n
  simp only [encodeHeaderSingle, this, hl]
  rw [if_neg (by omega)]

theorem encodeHeaderSingle_short (buf : Bytes) (n : Nat) (i : Id) (k : Construction) (h : idOk i)
    (hb : buf.length < i.headerLength n) :
    (encodeHeaderSingle buf n i k).1 = .fail := by
  have := encodeHeader_short buf k i.cls i.tag.toNat n (toNat_lt h)
    (by simpa [Id.headerLength, natCast_toNat h] using hb)
  rw [natCast_toNat h] at this
  simp [encodeHeaderSingle, this]

theorem length_encodeHeaderSingle (buf : Bytes) (n : Nat) (i : Id) (k : Construction) :
    (encodeHeaderSingle buf n i k).2.length = buf.length := by
  simp only [encodeHeaderSingle]
  split <;> simp [length_encodeHeader]

theorem encodeHeaderId_fits (buf : Bytes) (n : Nat) (id : Ident) (k : Construction) (h : identOk id)
    (hn : id.encodedLength n < 2 ^ 64) (hb : id.headerLength n + n ≤ buf.length) :
    encodeHeaderId buf n id k =
      (⟨true, id.headerLength n + n⟩, identHeader id k n ++ buf.drop (id.headerLength n)) := by
  cases id with
  | single i =>
    simp only [Ident.encodedLength, Id.encodedLength] at hn
    simp only [Ident.headerLength] at hb
    exact encodeHeaderSingle_fits buf n i k h (by omega) (by omega)
  | double o i =>
    simp only [Ident.encodedLength, Id.encodedLength] at hn
    simp only [Ident.headerLength, Id.encodedLength] at hb
    simp only [encodeHeaderId]
    rw [if_neg (by omega), encodeHeaderSingle_fits _ n i k h.2 (by omega) (by simp; omega)]
    have hl := length_headerId h.2 k n (by omega)
    dsimp only
    rw [encodeHeaderSingle_fits _ _ o .constructed h.1 (by omega)
      (by simp only [List.length_append, List.length_take]; omega)]
    rw [List.drop_append_of_le_length (by simp only [List.length_take]; omega)]
    have hnil : List.drop (o.headerLength (i.headerLength n + n))
        (List.take (o.headerLength (i.headerLength n + n)) buf) = [] := by
      apply List.drop_eq_nil_of_le; simp; omega
    simp only [Ident.headerLength, Id.encodedLength, identHeader, hnil, List.nil_append, hl,
      List.drop_drop, List.append_assoc, Prod.mk.injEq, and_true, EncodeResult.mk.injEq, true_and]
    omega

/-- `encode_header` never changes the size of the buffer. -/
theorem length_encodeHeaderId (buf : Bytes) (n : Nat) (id : Ident) (k : Construction) :
    (encodeHeaderId buf n id k).2.length = buf.length := by
  cases id with
  | single i => exact length_encodeHeaderSingle buf n i k
  | double o i =>
    simp only [encodeHeaderId]
    split
    · rfl
    · rw [length_encodeHeaderSingle]
      simp only [List.length_append, length_encodeHeaderSingle, List.length_take, List.length_drop]
      omega

theorem drop_writeAt {buf bs : Bytes} {i : Nat} (h : i ≤ buf.length) :
    (writeAt buf i bs).drop i = bs ++ buf.drop (i + bs.length) := by
  rw [writeAt, List.append_assoc, List.drop_append_of_le_length (by simp only [List.length_take]; omega)]
  have : (buf.take i).drop i = [] := by
    apply List.drop_eq_nil_of_le; simp only [List.length_take]; omega
  rw [this, List.nil_append]

/-- `wrap_with_ber_header` when the result fits: header for exactly this content, the content
itself, and the old tail of the buffer. -/
theorem wrap_fits (pre content post : Bytes) (id : Ident) (k : Construction) (h : identOk id)
    (hn : id.encodedLength content.length < 2 ^ 64)
    (hb : id.encodedLength content.length ≤ (pre ++ content ++ post).length) :
    wrapWithBerHeader (pre ++ content ++ post) content.length id pre.length k =
      .ok (⟨true, id.encodedLength content.length⟩,
        tagged id k content ++ (pre ++ content ++ post).drop (id.encodedLength content.length)) := by
  have hih := length_identHeader h k content.length hn
  rw [tagged_eq]
  rw [Ident.encodedLength_eq] at hb hn ⊢
  unfold wrapWithBerHeader
  dsimp only
  rw [if_neg (by omega), if_neg (by simp only [List.length_append]; omega)]
  have hc : ((pre ++ content ++ post).drop pre.length).take content.length = content := by simp
  rw [hc]
  by_cases ho : pre.length = id.headerLength content.length
  · rw [if_neg (by simp [ho]), encodeHeaderId_fits _ _ _ _ h (by rw [Ident.encodedLength_eq]; exact hn) hb, ← ho]
    simp
  · rw [if_pos (by simpa using ho), encodeHeaderId_fits _ _ _ _ h (by rw [Ident.encodedLength_eq]; exact hn)
      (by rw [length_writeAt hb]; exact hb)]
    rw [drop_writeAt (by omega)]; simp

theorem wrap_short (buf : Bytes) (n offset : Nat) (id : Ident) (k : Construction)
    (hb : buf.length < id.encodedLength n) :
    wrapWithBerHeader buf n id offset k = .ok (.fail, buf) := by
  rw [Ident.encodedLength_eq] at hb
  unfold wrapWithBerHeader
  dsimp only
  rw [if_pos (by omega)]

/-! ## has_correct_header on canonical elements -/

theorem element_tagId (i : Id) (h : idOk i) (k : Construction) (content suffix : Bytes) (tag0 : Int)
    (hlen : (elementId i k content).length < 2 ^ 64) :
    BerView.assign (elementId i k content ++ suffix) tag0 =
      .ok (elementView i.cls k i.tag.toNat content suffix) :=
  assign_element _ _ _ _ _ _ (toNat_lt h) hlen

/-- The view `BerView` builds on a canonical tagged element followed by arbitrary bytes. -/
def taggedView : Ident → Construction → Bytes → Bytes → BerView
  | .single i, k, content, suffix => elementView i.cls k i.tag.toNat content suffix
  | .double o i, k, content, suffix =>
    elementView o.cls .constructed o.tag.toNat (elementId i k content) suffix

theorem assign_tagged (id : Ident) (h : identOk id) (k : Construction) (content suffix : Bytes) (tag0 : Int)
    (hlen : (tagged id k content).length < 2 ^ 64) :
    BerView.assign (tagged id k content ++ suffix) tag0 = .ok (taggedView id k content suffix) := by
  cases id with
  | single i => exact element_tagId i h k content suffix tag0 hlen
  | double o i => exact element_tagId o h.1 _ _ suffix tag0 hlen

theorem elementId_le_tagged (o i : Id) (k : Construction) (content : Bytes) :
    (elementId i k content).length ≤ (tagged (.double o i) k content).length := by
  have := length_element o.cls .constructed o.tag.toNat (elementId i k content)
  simp only [tagged, elementId] at *
  omega

theorem begin_elementView (c : Class) (k : Construction) (t : Nat) (content suffix : Bytes) :
    (elementView c k t content suffix).begin = Iter.mk' content := by
  simp [BerView.begin]

theorem begin_double (o i : Id) (hi : idOk i) (k : Construction) (content suffix : Bytes)
    (hlen : (elementId i k content).length < 2 ^ 64) :
    (taggedView (.double o i) k content suffix).begin =
      .ok ⟨elementId i k content, elementView i.cls k i.tag.toNat content []⟩ := by
  rw [taggedView, begin_elementView]
  have := element_tagId i hi k content [] 0 hlen
  simp only [List.append_nil] at this
  simp [Iter.mk', BerView.parse, this]

theorem mk_id {i : Id} (h : idOk i) : (⟨i.cls, ((i.tag.toNat : Nat) : Int)⟩ : Id) = i := by
  cases i; simp [natCast_toNat h]

theorem hasCorrectHeader_tagged (id : Ident) (h : identOk id) (k : Construction) (content suffix : Bytes)
    (hlen : (tagged id k content).length < 2 ^ 64) :
    hasCorrectHeader (taggedView id k content suffix) id k = .ok true := by
  cases id with
  | single i =>
    simp [hasCorrectHeader, taggedView, natCast_toNat h]
  | double o i =>
    have hl := elementId_le_tagged o i k content
    simp only [hasCorrectHeader]
    rw [begin_double o i h.2 k content suffix (by omega)]
    simp only [taggedView, elementView_valid, Bool.not_true, elementView_identifier,
      elementView_construction, Exec.ok_bind, mk_id h.1, mk_id h.2]
    simp

end FastBer
