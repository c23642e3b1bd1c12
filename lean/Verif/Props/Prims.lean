import Verif.Proofs.Small
/-! # Properties C12-C19: INTEGER, BOOLEAN, NULL, ENUMERATED -/
namespace FastBer.Props
open FastBer Spec
set_option maxRecDepth 100000

/-! ## Content octets of INTEGER -/

/-- C12.  `encode_integer` into any buffer of at least 8 bytes, then `decode_integer` of the written
octets, gives back every `int64_t`. -/
theorem C12_integer_content_round_trip (v : Int) (hv : isInt64 v) (out : Bytes) (ho : 8 ≤ out.length)
    (n : Nat) (out' : Bytes) (h : encodeInteger out v = (n, out')) (x0 : Int) :
    decodeInteger (out'.take n) x0 = (true, v) := by
  have hl := intContent_length v
  rw [encodeInteger_eq, if_neg (by omega)] at h
  simp only [Prod.mk.injEq] at h
  obtain ⟨rfl, rfl⟩ := h
  rw [List.take_left, decodeInteger_eq, if_pos hl, intContent_value v hv]

example : encodeInteger [9, 9, 9, 9, 9, 9, 9, 9, 9] (-129) = (2, [0xFF, 0x7F, 9, 9, 9, 9, 9, 9, 9]) := by decide +kernel
example : encodeInteger [9, 9, 9, 9, 9, 9, 9, 9] (-2 ^ 63) = (8, [0x80, 0, 0, 0, 0, 0, 0, 0]) := by decide +kernel

/-- C13.  `encode_integer` succeeds exactly when the minimal content fits; it writes 1..8 octets, the
two's complement form of the value, satisfying X.690 8.3.2, and leaves the rest of the buffer alone. -/
theorem C13_integer_content_minimal (v : Int) (hv : isInt64 v) (out : Bytes) :
    ∃ content : Bytes, 1 ≤ content.length ∧ content.length ≤ 8 ∧ twosComplement content = v ∧ minimalInt content ∧
      encodeInteger out v =
        if content.length ≤ out.length then (content.length, content ++ out.drop content.length) else (0, out) := by
  have hl := intContent_length v
  refine ⟨intContent v, hl.1, hl.2, intContent_value v hv, intContent_minimal v, ?_⟩
  rw [encodeInteger_eq]
  by_cases h : (intContent v).length ≤ out.length
  · rw [if_neg (by omega), if_pos h]
  · rw [if_pos (by omega), if_neg h]

/-- Shape of a two's complement number: bounds by the number of octets. -/
theorem twosComplement_bounds (b : UInt8) (r : Bytes) :
    -(128 * 256 ^ r.length : Int) ≤ twosComplement (b :: r) ∧ twosComplement (b :: r) < 128 * 256 ^ r.length := by
  have hc := value256_cons b r
  have hlt2 := value256_lt r
  have hb := b.toNat_lt
  have hpos : 0 < 256 ^ r.length := Nat.pow_pos (by decide)
  have hcast : ((256 : Int) ^ r.length) = ((256 ^ r.length : Nat) : Int) := by simp
  simp only [twosComplement, List.length_cons, Int.pow_succ, hcast]
  generalize 256 ^ r.length = p at *
  have h128 : b.toNat * p < 256 * p := Nat.mul_lt_mul_of_pos_right hb hpos
  split
  · rename_i hge
    have : 128 * p ≤ b.toNat * p := Nat.mul_le_mul_right _ hge
    omega
  · have : b.toNat * p ≤ 127 * p := Nat.mul_le_mul_right _ (by omega)
    omega

/-- C13 (no shorter content).  Any content with the same value has at least as many octets as a
minimal one; so minimal contents are unique in length. -/
theorem C13_no_shorter_content (m bs : Bytes) (hm : minimalInt m) (hb : bs ≠ [])
    (h : twosComplement bs = twosComplement m) : m.length ≤ bs.length := by
  match m, hm with
  | [a], _ => cases bs with
    | nil => exact absurd rfl hb
    | cons => simp
  | a :: b :: r, hm =>
    cases bs with
    | nil => exact absurd rfl hb
    | cons c s =>
      rcases Nat.lt_or_ge s.length (r.length + 1) with hlt | hge
      · exfalso
        have h1 := twosComplement_bounds c s
        rw [h] at h1
        have hp : (256 : Nat) ^ s.length ≤ 256 ^ r.length := Nat.pow_le_pow_right (by decide) (by omega)
        have ha := value256_cons a (b :: r)
        have hbb := value256_cons b r
        have hv := value256_lt r
        have hal := a.toNat_lt
        have hbl := b.toNat_lt
        have hpos : 0 < 256 ^ r.length := Nat.pow_pos (by decide)
        have hc1 : ((256 : Int) ^ s.length) = ((256 ^ s.length : Nat) : Int) := by simp
        have hc2 : ((256 : Int) ^ r.length) = ((256 ^ r.length : Nat) : Int) := by simp
        have hpow : (256 : Nat) ^ (b :: r).length = 256 ^ r.length * 256 := by simp [Nat.pow_succ]
        simp only [minimalInt] at hm
        simp only [twosComplement, List.length_cons, Int.pow_succ, hc1, hc2] at h1
        rw [hpow] at ha
        generalize (256 : Nat) ^ r.length = p at *
        generalize (256 : Nat) ^ s.length = q at *
        rw [hbb] at ha
        rw [ha] at h1
        by_cases hge : 128 ≤ a.toNat
        · rw [if_pos hge] at h1
          by_cases h255 : a.toNat = 255
          · have hb128 : b.toNat ≤ 127 := by omega
            have : b.toNat * p ≤ 127 * p := Nat.mul_le_mul_right _ hb128
            rw [h255] at h1; omega
          · have : a.toNat * (p * 256) ≤ 254 * (p * 256) := Nat.mul_le_mul_right _ (by omega)
            have : b.toNat * p ≤ 255 * p := Nat.mul_le_mul_right _ (by omega)
            omega
        · rw [if_neg hge] at h1
          by_cases h0 : a.toNat = 0
          · have : 128 * p ≤ b.toNat * p := Nat.mul_le_mul_right _ (by omega)
            rw [h0] at h1; omega
          · have : 1 * (p * 256) ≤ a.toNat * (p * 256) := Nat.mul_le_mul_right _ (by omega)
            omega
      · simp; omega

/-- C14.  `decode_integer` accepts exactly 1..8 octets and returns their two's complement value, which
is an `int64_t`; otherwise the output is left alone. -/
theorem C14_decode_integer_exact (input : Bytes) (x0 : Int) :
    decodeInteger input x0 =
      (if 1 ≤ input.length ∧ input.length ≤ 8 then (true, twosComplement input) else (false, x0)) ∧
    (input.length ≤ 8 → isInt64 (twosComplement input)) :=
  ⟨decodeInteger_eq input x0, twosComplement_int64 input⟩

example : decodeInteger [0xFF, 0xFF, 0x80] 7 = (true, -128) := by decide +kernel
example : decodeInteger [] 7 = (false, 7) := by decide

/-! ## INTEGER objects -/

/-- States of an `Integer<id>` object reachable by any history of construction, `assign`,
(cross-identifier) copy and `decode`, together with the value the last successful operation gave it. -/
inductive IntReach : Ident → Bytes → Int → Prop
  | default {id d} : Integer.default id = .ok d → IntReach id d 0
  | construct {id d v} : isInt64 v → Integer.ofInt id v = .ok d → IntReach id d v
  | assign {id d x d' v} : IntReach id d x → isInt64 v → Integer.assign id d v = .ok d' → IntReach id d' v
  | copyFrom {id id2 d d2 d' x y} : identOk id2 → IntReach id d x → IntReach id2 d2 y →
      Integer.assignFrom id id2 d d2 = .ok d' → IntReach id d' y
  | decodeOk {id d x d' input v w c} : IntReach id d x → BerView.parse input = .ok v →
      Integer.decode id d v = .ok (true, d') → Matches v id .primitive w → w.content = .ok c →
      IntReach id d' (twosComplement c)
  | decodeFail {id d x d' input v} : IntReach id d x → BerView.parse input = .ok v →
      Integer.decode id d v = .ok (false, d') → IntReach id d' x

theorem sane_parse {input : Bytes} {v : BerView} (h : Sane input) (hp : BerView.parse input = .ok v) :
    SaneView v := by
  obtain ⟨v', h1, h2, _⟩ := h.assign 0
  rw [BerView.parse, h1] at hp
  simp only [Exec.ok.injEq] at hp
  subst hp; exact h2

theorem assign_wf {id : Ident} (hid : identOk id) {c d : Bytes} (h : SmallWf id 8 c d) (v : Int) :
    ∃ d', Integer.assign id d v = .ok d' ∧ SmallWf id 8 (intContent v) d' := by
  have hl := h.length hid (by omega)
  have hn := intContent_length v
  have ha : ((d.drop (id.headerLength 0)).take 8).length = 8 := by
    rw [List.length_take, List.length_drop]; omega
  refine ⟨_, by rw [Integer.assign, if_pos (by omega)], ?_⟩
  rw [encodeInteger_eq, if_neg (by omega)]
  simp only
  have := h.set hid (by omega) (intContent v ++ ((d.drop (id.headerLength 0)).take 8).drop (intContent v).length)
    (by simp only [List.length_append, List.length_drop, ha]; omega) (intContent v).length (by simp)
  rwa [List.take_left] at this

theorem reach_wf {id : Ident} {d : Bytes} {x : Int} (hid : identOk id) (h : IntReach id d x) :
    ∃ c, SmallWf id 8 c d ∧ twosComplement c = x := by
  induction h with
  | default h =>
    obtain ⟨d', e, hw⟩ := (SmallWf.init hid 8).assignContent hid (by omega) [0x00] (by simp)
    rw [Integer.default, e] at h
    simp only [Exec.ok.injEq] at h
    subst h; exact ⟨_, hw, by decide⟩
  | construct hv h =>
    obtain ⟨d', e, hw⟩ := assign_wf hid (SmallWf.init hid 8) _
    rw [Integer.ofInt, e] at h
    simp only [Exec.ok.injEq] at h
    subst h; exact ⟨_, hw, intContent_value _ hv⟩
  | assign _ hv h ih =>
    obtain ⟨c, hw, _⟩ := ih hid
    obtain ⟨d', e, hw'⟩ := assign_wf hid hw _
    rw [e] at h
    simp only [Exec.ok.injEq] at h
    subst h; exact ⟨_, hw', intContent_value _ hv⟩
  | copyFrom hid2 _ _ h ih1 ih2 =>
    obtain ⟨c, hw, _⟩ := ih1 hid
    obtain ⟨c2, hw2, hx⟩ := ih2 hid2
    rw [Integer.assignFrom, hw2.content hid2 (by omega), Exec.ok_bind] at h
    obtain ⟨d', e, hw'⟩ := hw.assignContent hid (by omega) c2 hw2.1
    rw [e] at h
    simp only [Exec.ok.injEq] at h
    subst h; exact ⟨_, hw', hx⟩
  | decodeOk _ hp h hm hc ih =>
    obtain ⟨c, hw, _⟩ := ih hid
    rcases hw.decode_inv hid (by omega) _ _ _ h with ⟨_, w, c', m, e1, _, e3⟩ | ⟨e, _⟩
    · rw [← matches_unique m hm, e1] at hc
      simp only [Exec.ok.injEq] at hc
      subst hc; exact ⟨_, e3, rfl⟩
    · cases e
  | decodeFail _ hp h ih =>
    obtain ⟨c, hw, hx⟩ := ih hid
    rcases hw.decode_inv hid (by omega) _ _ _ h with ⟨e, _⟩ | ⟨_, rfl⟩
    · cases e
    · exact ⟨c, hw, hx⟩

/-- C16.  After any history, `value()` is the value of the last successful operation,
`encoded_length()` is the size of the canonical element for the content, and `encode` writes exactly
that element. -/
theorem C16_integer_history (id : Ident) (hid : identOk id) (d : Bytes) (x : Int) (h : IntReach id d x) :
    Integer.value id d = .ok x ∧
    ∃ content : Bytes, content.length ≤ 8 ∧ twosComplement content = x ∧
      Integer.encodedLength id d = (tagged id .primitive content).length ∧
      ∀ buf, Integer.encode id d buf = .ok (if (tagged id .primitive content).length ≤ buf.length
        then (⟨true, (tagged id .primitive content).length⟩,
          tagged id .primitive content ++ buf.drop (tagged id .primitive content).length)
        else (⟨false, 0⟩, buf)) := by
  obtain ⟨c, hw, hx⟩ := reach_wf hid h
  refine ⟨?_, c, hw.1, hx, hw.berLength hid (by omega), hw.encode hid (by omega)⟩
  rw [Integer.value, hw.content hid (by omega), Exec.ok_bind, decodeInteger_eq]
  split
  · rw [← hx]
  · have := hw.1
    obtain rfl : c = [] := List.length_eq_zero_iff.mp (by omega)
    rw [← hx]; rfl

/-- C16 (progress): on every reachable state every operation is defined. -/
theorem C16_integer_no_ub (id id2 : Ident) (hid : identOk id) (hid2 : identOk id2) (d d2 : Bytes) (x y : Int)
    (h : IntReach id d x) (h2 : IntReach id2 d2 y) :
    (∀ v, (Integer.assign id d v).Safe) ∧ (Integer.assignFrom id id2 d d2).Safe ∧
    (∀ input v, Sane input → BerView.parse input = .ok v → (Integer.decode id d v).Safe) := by
  obtain ⟨c, hw, _⟩ := reach_wf hid h
  obtain ⟨c2, hw2, _⟩ := reach_wf hid2 h2
  refine ⟨fun v => ?_, ?_, fun input v hs hp => ?_⟩
  · obtain ⟨d', e, _⟩ := assign_wf hid hw v
    exact ⟨_, e⟩
  · rw [Integer.assignFrom, hw2.content hid2 (by omega), Exec.ok_bind]
    obtain ⟨d', e, _⟩ := hw.assignContent hid (by omega) c2 hw2.1
    exact ⟨_, e⟩
  · rcases hw.decode hid (by omega) v (sane_parse hs hp) with ⟨_, _, _, _, _, _, e, _⟩ | ⟨_, e⟩
    · exact ⟨_, e⟩
    · exact ⟨_, e⟩

/-- The minimal content of a value is used by `assign` (so encodings of assigned integers are canonical). -/
theorem C16_assigned_integer_is_minimal (id : Ident) (hid : identOk id) (d d' : Bytes) (x v : Int)
    (h : IntReach id d x) (hv : isInt64 v) (ha : Integer.assign id d v = .ok d') :
    ∃ content, minimalInt content ∧ twosComplement content = v ∧
      ∀ buf, (tagged id .primitive content).length ≤ buf.length → ∃ rest,
        Integer.encode id d' buf = .ok (⟨true, (tagged id .primitive content).length⟩,
          tagged id .primitive content ++ rest) := by
  obtain ⟨c, hw, _⟩ := reach_wf hid h
  obtain ⟨d1, e, hw'⟩ := assign_wf hid hw v
  rw [e] at ha
  simp only [Exec.ok.injEq] at ha
  subst ha
  refine ⟨intContent v, intContent_minimal v, intContent_value v hv, fun buf hb => ?_⟩
  exact ⟨_, by rw [Integer.encode, hw'.encode hid (by omega), if_pos hb]⟩

example : ∃ d, IntReach (.double ⟨.contextSpecific, 500⟩ ⟨.universal, 2⟩) d (-1000) :=
  ⟨[0xBF, 0x83, 0x74, 4, 0x02, 2, 0xFC, 0x18, 0, 0, 0, 0, 0, 0],
    .construct (v := -1000) (by unfold isInt64; omega) (by decide +kernel)⟩

/-- C15 is false of the code: an INTEGER with empty content is accepted (X.690 8.3.1 demands one octet). -/
theorem C15_violated : ∃ (input : Bytes) (v : BerView) (d d' : Bytes), BerView.parse input = .ok v ∧
    v.content = .ok [] ∧ Integer.default (.single ⟨.universal, 2⟩) = .ok d ∧
    Integer.decode (.single ⟨.universal, 2⟩) d v = .ok (true, d') :=
  ⟨[0x02, 0x00], _, _, _, rfl, rfl, rfl, rfl⟩

/-- C15, exact: `Integer::decode` succeeds exactly on a primitive element with the right identifier(s)
and a content of 0..8 octets; then `value()` is the two's complement value (0 for empty content); on
failure the object is unchanged. -/
theorem C15_integer_decode_partial (id : Ident) (hid : identOk id) (d : Bytes) (x : Int) (h : IntReach id d x)
    (input : Bytes) (v : BerView) (hp : BerView.parse input = .ok v) :
    (∀ d', Integer.decode id d v = .ok (true, d') →
      ∃ w c, Matches v id .primitive w ∧ w.content = .ok c ∧ c.length ≤ 8 ∧ Integer.value id d' = .ok (twosComplement c)) ∧
    (∀ w c, Matches v id .primitive w → w.content = .ok c → c.length ≤ 8 → ∃ d', Integer.decode id d v = .ok (true, d')) ∧
    (∀ d', Integer.decode id d v = .ok (false, d') → d' = d) := by
  obtain ⟨c0, hw, _⟩ := reach_wf hid h
  refine ⟨fun d' h' => ?_, fun w c m hc hl => ?_, fun d' h' => ?_⟩
  · rcases hw.decode_inv hid (by omega) v _ _ h' with ⟨_, w, c', m, e1, hl, e3⟩ | ⟨e, _⟩
    · exact ⟨w, c', m, e1, hl, (C16_integer_history id hid d' _ (.decodeOk h hp h' m e1)).1⟩
    · cases e
  · have hcl := content_ok_length hc
    obtain ⟨d', e, _⟩ := hw.decode_match hid (by omega) m hc hcl (by omega)
    exact ⟨d', e⟩
  · rcases hw.decode_inv hid (by omega) v _ _ h' with ⟨e, _⟩ | ⟨_, e⟩
    · cases e
    · exact e

/-- INTEGER wire round trip: encode any reachable object into any buffer, decode the buffer into any
other reachable object of the same type: it gets the same value. -/
theorem C16_integer_wire_round_trip (id : Ident) (hid : identOk id) (d d2 buf buf' : Bytes) (x y : Int) (n : Nat)
    (h : IntReach id d x) (h2 : IntReach id d2 y) (henc : Integer.encode id d buf = .ok (⟨true, n⟩, buf')) :
    ∃ v d', BerView.parse buf' = .ok v ∧ Integer.decode id d2 v = .ok (true, d') ∧ Integer.value id d' = .ok x := by
  obtain ⟨c, hw, hx⟩ := reach_wf hid h
  obtain ⟨c2, hw2, _⟩ := reach_wf hid h2
  rw [Integer.encode, hw.encode hid (by omega)] at henc
  have hel := Ident.encodedLength_lt id c.length
  have hlt : (tagged id .primitive c).length < 2 ^ 64 := by
    rw [length_tagged hid .primitive c (by have := hw.1; omega)]; have := hw.1; omega
  split at henc
  · simp only [Exec.ok.injEq, Prod.mk.injEq] at henc
    obtain ⟨_, rfl⟩ := henc
    obtain ⟨w, hm, hc, hl⟩ := matches_tagged id hid .primitive c (buf.drop (tagged id .primitive c).length) hlt
    obtain ⟨d', e2, e3⟩ := hw2.decode_match hid (by omega) hm hc hl.symm (by have := hw.1; omega)
    refine ⟨taggedView id .primitive c (buf.drop (tagged id .primitive c).length), d',
      assign_tagged id hid .primitive c _ 0 hlt, e2, ?_⟩
    rw [Integer.value, e3.content hid (by omega), Exec.ok_bind, decodeInteger_eq]
    split
    · rw [← hx]
    · have := hw.1
      obtain rfl : c = [] := List.length_eq_zero_iff.mp (by omega)
      rw [← hx]; rfl
  · simp at henc

/-! ## BOOLEAN -/

/-- States of a `Boolean<id>` reachable by any history, with the content octet they hold. -/
inductive BoolReach : Ident → Bytes → UInt8 → Prop
  | default {id} : identOk id → BoolReach id (Boolean.default id) 0x00
  | assign {id d b} (v : Bool) : BoolReach id d b → BoolReach id (Boolean.assign d v) (if v then 0xFF else 0x00)
  | copyFrom {id id2 d d2 b b2} : BoolReach id d b → BoolReach id2 d2 b2 → BoolReach id (Boolean.assignFrom d d2) b2
  | decodeOk {id d b d' input v w b'} : BoolReach id d b → BerView.parse input = .ok v →
      Boolean.decode id d v = .ok (true, d') → Matches v id .primitive w → w.content = .ok [b'] → BoolReach id d' b'

theorem boolReach_eq {id : Ident} {d : Bytes} {b : UInt8} (h : BoolReach id d b) :
    identOk id ∧ d = tagged id .primitive [b] := by
  induction h with
  | default hid => exact ⟨hid, encodedHeaderArray_eq hid (by omega)⟩
  | assign v _ ih => exact ⟨ih.1, by rw [ih.2, Boolean.assign, setBack_tagged]⟩
  | copyFrom _ _ ih1 ih2 => exact ⟨ih1.1, by rw [ih1.2, ih2.2, Boolean.assignFrom, getLastD_tagged, setBack_tagged]⟩
  | decodeOk _ hp h hm hc ih =>
    obtain ⟨hid, rfl⟩ := ih
    refine ⟨hid, ?_⟩
    rw [Boolean.decode_match hm hc (by rw [← content_ok_length hc]; rfl)] at h
    simp only [Exec.ok.injEq, Prod.mk.injEq, true_and] at h
    rw [← h, setBack_tagged]

/-- C17 (histories).  After any history a `Boolean<id>` holds the canonical element with the last
octet stored; `value()` is true iff that octet is non-zero; `encode` writes that element. -/
theorem C17_boolean_history (id : Ident) (d : Bytes) (b : UInt8) (h : BoolReach id d b) (buf : Bytes) :
    Boolean.value d = (b != 0) ∧
    Boolean.encodedLength id = (tagged id .primitive [b]).length ∧
    Boolean.encode d buf = (if (tagged id .primitive [b]).length ≤ buf.length
      then (⟨true, (tagged id .primitive [b]).length⟩,
        tagged id .primitive [b] ++ buf.drop (tagged id .primitive [b]).length)
      else (⟨false, 0⟩, buf)) := by
  obtain ⟨hid, rfl⟩ := boolReach_eq h
  have := Ident.encodedLength_lt id 1
  refine ⟨by rw [Boolean.value, getLastD_tagged], ?_, by rw [Boolean.encode, encodeArray_eq]⟩
  rw [length_tagged hid .primitive [b] (by simp; omega)]; rfl

/-- C17 (assign).  true is held as 0xFF, false as 0x00, and `value()` gives the assigned value. -/
theorem C17_boolean_assign (id : Ident) (d : Bytes) (b : UInt8) (h : BoolReach id d b) (x : Bool) :
    Boolean.assign d x = tagged id .primitive [if x then 0xFF else 0x00] ∧ Boolean.value (Boolean.assign d x) = x := by
  obtain ⟨hid, rfl⟩ := boolReach_eq h
  rw [Boolean.assign, setBack_tagged]
  refine ⟨rfl, ?_⟩
  rw [Boolean.value, getLastD_tagged]
  cases x <;> rfl

/-- C17 (decode).  On arbitrary bytes: success exactly for a primitive element with the right
identifier(s) and one content octet, which is then held; otherwise the object is unchanged. -/
theorem C17_boolean_decode (id : Ident) (d : Bytes) (b : UInt8) (h : BoolReach id d b)
    (input : Bytes) (hs : Sane input) (v : BerView) (hp : BerView.parse input = .ok v) :
    (∃ w b', Matches v id .primitive w ∧ w.content = .ok [b'] ∧
      Boolean.decode id d v = .ok (true, tagged id .primitive [b']) ∧
      Boolean.value (tagged id .primitive [b']) = (b' != 0)) ∨
    ((¬ ∃ w b', Matches v id .primitive w ∧ w.content = .ok [b']) ∧ Boolean.decode id d v = .ok (false, d)) := by
  obtain ⟨hid, rfl⟩ := boolReach_eq h
  rcases Boolean.decode_cases id (tagged id .primitive [b]) v (sane_parse hs hp) with ⟨w, b', m, e1, e2⟩ | ⟨hn, e⟩
  · refine .inl ⟨w, b', m, e1, by rw [e2, setBack_tagged], by rw [Boolean.value, getLastD_tagged]⟩
  · refine .inr ⟨?_, e⟩
    rintro ⟨w, b', m, hc⟩
    exact hn w _ m hc rfl

/-- C17 (wire round trip).  Encode any reachable object into any buffer (success), decode the buffer
into any other object of that type: same octet, hence same value, whatever follows in the buffer. -/
theorem C17_boolean_wire_round_trip (id : Ident) (d d2 buf buf' : Bytes) (b b2 : UInt8) (n : Nat)
    (h : BoolReach id d b) (h2 : BoolReach id d2 b2) (henc : Boolean.encode d buf = (⟨true, n⟩, buf')) :
    ∃ v, BerView.parse buf' = .ok v ∧ Boolean.decode id d2 v = .ok (true, d) := by
  rw [(C17_boolean_history id d b h buf).2.2] at henc
  obtain ⟨hid, rfl⟩ := boolReach_eq h
  obtain ⟨_, rfl⟩ := boolReach_eq h2
  have hel := Ident.encodedLength_lt id 1
  have hlt : (tagged id .primitive [b]).length < 2 ^ 64 := by
    rw [length_tagged hid .primitive [b] (by simp; omega)]; simp; omega
  split at henc
  · simp only [Prod.mk.injEq] at henc
    obtain ⟨_, rfl⟩ := henc
    refine ⟨_, assign_tagged id hid .primitive [b] _ 0 hlt, ?_⟩
    obtain ⟨w, hm, hc, hl⟩ := matches_tagged id hid .primitive [b] (buf.drop (tagged id .primitive [b]).length) hlt
    rw [Boolean.decode_match hm hc (by simpa using hl), setBack_tagged]
  · simp at henc

example : BoolReach (.single ⟨.universal, 1⟩) [0x01, 0x01, 0xFF] 0xFF := by
  have := BoolReach.assign true (BoolReach.default (id := .single ⟨.universal, 1⟩) (by simp [identOk, idOk]))
  exact this

/-! ## NULL -/

/-- C18.  Decoding succeeds exactly for a primitive element with the right identifier(s) and empty
content; the object never changes. -/
theorem C18_null_decode (id : Ident) (d input : Bytes) (hs : Sane input) (v : BerView)
    (hp : BerView.parse input = .ok v) :
    Null.decode id d v = .ok (true, d) ∧ (∃ w, Matches v id .primitive w ∧ w.content = .ok []) ∨
    Null.decode id d v = .ok (false, d) ∧ ¬ ∃ w, Matches v id .primitive w ∧ w.content = .ok [] := by
  rcases Null.decode_cases id d v (sane_parse hs hp) with ⟨w, m, e1, e2⟩ | ⟨hn, e⟩
  · exact .inl ⟨e2, w, m, e1⟩
  · exact .inr ⟨e, fun ⟨w, m, hc⟩ => hn w _ m hc rfl⟩

/-- C18.  Encoding writes the canonical empty element exactly when it fits, and it decodes. -/
theorem C18_null_round_trip (id : Ident) (hid : identOk id) (buf : Bytes) :
    Null.encodedLength id = (tagged id .primitive []).length ∧
    Null.encode (Null.default id) buf = (if (tagged id .primitive []).length ≤ buf.length
      then (⟨true, (tagged id .primitive []).length⟩,
        tagged id .primitive [] ++ buf.drop (tagged id .primitive []).length)
      else (⟨false, 0⟩, buf)) ∧
    ∀ suffix d2, ∃ v, BerView.parse (tagged id .primitive [] ++ suffix) = .ok v ∧ Null.decode id d2 v = .ok (true, d2) := by
  have hd : Null.default id = tagged id .primitive [] := encodedHeaderArray_eq hid (by omega)
  have hel := Ident.encodedLength_lt id 0
  have hl := length_tagged hid .primitive [] (by simp; omega)
  refine ⟨hl.symm, by rw [Null.encode, encodeArray_eq, hd], fun suffix d2 => ?_⟩
  have hlt : (tagged id .primitive []).length < 2 ^ 64 := by rw [hl]; simp; omega
  refine ⟨_, assign_tagged id hid .primitive [] suffix 0 hlt, ?_⟩
  obtain ⟨w, hm, hc, hl⟩ := matches_tagged id hid .primitive [] suffix hlt
  exact Null.decode_match hm (by simpa using hl)

example : Null.encode (Null.default (.double ⟨.private_, 1⟩ ⟨.universal, 5⟩)) [9, 9, 9, 9, 9]
    = (⟨true, 4⟩, [0xE1, 2, 5, 0, 9]) := by decide +kernel

/-! ## ENUMERATED -/

/-- C19.  For every enumerator value of an enumeration whose underlying type has `bits` bits
(`enum class` without a base: 32), assign/value round trips, and so does the wire. -/
theorem C19_enumerated_assign (id : Ident) (hid : identOk id) (bits : Nat) (hb : 1 ≤ bits ∧ bits ≤ 64) (d : Bytes) (x v : Int)
    (h : IntReach id d x) (hv : -2 ^ (bits - 1) ≤ v ∧ v < 2 ^ (bits - 1)) :
    ∃ d', Enumerated.assign id d v = .ok d' ∧ Enumerated.value id bits d' = .ok v ∧ IntReach id d' v := by
  have hp : (2 : Int) ^ (bits - 1) ≤ 2 ^ 63 := by
    have : (2 : Nat) ^ (bits - 1) ≤ 2 ^ 63 := Nat.pow_le_pow_right (by decide) (by omega)
    exact_mod_cast this
  have hi : isInt64 v := by unfold isInt64; omega
  obtain ⟨c, hw, _⟩ := reach_wf hid h
  obtain ⟨d', e, _⟩ := assign_wf hid hw v
  have hr : IntReach id d' v := .assign h hi e
  refine ⟨d', e, ?_, hr⟩
  rw [Enumerated.value, (C16_integer_history id hid d' v hr).1, Exec.ok_bind]
  congr 1
  obtain ⟨n, rfl⟩ : ∃ n, bits = n + 1 := ⟨bits - 1, by omega⟩
  simp only [Nat.add_sub_cancel] at hv
  have hpn : (2 : Int) ^ n = ((2 ^ n : Nat) : Int) := by simp
  rw [hpn] at hv
  rw [Int.bmod_def]
  have e2 : (2 : Nat) ^ (n + 1) = 2 * 2 ^ n := by rw [Nat.pow_succ]; omega
  rw [e2]
  have : 0 < 2 ^ n := Nat.pow_pos (by decide)
  generalize 2 ^ n = p at *
  push_cast
  have hcases : v % (2 * (p : Int)) = if 0 ≤ v then v else v + 2 * p := by
    split
    · exact Int.emod_eq_of_lt (by omega) (by omega)
    · rw [← Int.add_emod_right]; exact Int.emod_eq_of_lt (by omega) (by omega)
  rw [hcases]
  split <;> split <;> omega

/-- C19 (wire). -/
theorem C19_enumerated_round_trip (id : Ident) (hid : identOk id) (bits : Nat) (hb : 1 ≤ bits ∧ bits ≤ 64)
    (d d1 d2 buf buf' : Bytes) (x v y : Int) (n : Nat) (h : IntReach id d x) (h2 : IntReach id d2 y)
    (hv : -2 ^ (bits - 1) ≤ v ∧ v < 2 ^ (bits - 1)) (ha : Enumerated.assign id d v = .ok d1)
    (henc : Enumerated.encode id d1 buf = .ok (⟨true, n⟩, buf')) :
    n = Enumerated.encodedLength id d1 ∧
    ∃ w d', BerView.parse buf' = .ok w ∧ Enumerated.decode id d2 w = .ok (true, d') ∧
      Enumerated.value id bits d' = .ok v := by
  obtain ⟨d1', e, hval, hr⟩ := C19_enumerated_assign id hid bits hb d x v h hv
  rw [ha] at e
  simp only [Exec.ok.injEq] at e
  subst e
  obtain ⟨w, d', p1, p2, p3⟩ := C16_integer_wire_round_trip id hid d1 d2 buf buf' v y n hr h2 henc
  constructor
  · obtain ⟨_, c, _, _, hl, he⟩ := C16_integer_history id hid d1 v hr
    rw [Enumerated.encode, he] at henc
    split at henc
    · simp only [Exec.ok.injEq, Prod.mk.injEq, EncodeResult.mk.injEq, true_and] at henc
      rw [Enumerated.encodedLength, hl, ← henc.1]
    · simp at henc
  · refine ⟨w, d', p1, p2, ?_⟩
    rw [Enumerated.value, (C16_integer_history id hid d1 v hr).1, Exec.ok_bind] at hval
    rw [Enumerated.value, p3, Exec.ok_bind]
    exact hval

/-- C19 (finding): an ENUMERATED content outside the range of the underlying `int` is accepted and
truncated, so 2^32 + 1 decodes as the enumerator with value 1. -/
theorem C19_truncation_violates : ∃ (input : Bytes) (v : BerView) (d d' : Bytes), BerView.parse input = .ok v ∧
    Enumerated.default (.single ⟨.universal, 10⟩) = .ok d ∧
    Enumerated.decode (.single ⟨.universal, 10⟩) d v = .ok (true, d') ∧
    Integer.value (.single ⟨.universal, 10⟩) d' = .ok (2 ^ 32 + 1) ∧
    Enumerated.value (.single ⟨.universal, 10⟩) 32 d' = .ok 1 :=
  ⟨[0x0A, 0x05, 0x01, 0, 0, 0, 0x01], ⟨true, [0x0A, 0x05, 0x01, 0, 0, 0, 0x01], 10, 2, 5⟩,
    [0x0A, 0x01, 0, 0, 0, 0, 0, 0, 0, 0], [0x0A, 0x05, 0x01, 0, 0, 0, 0x01, 0, 0, 0],
    by decide +kernel, by decide +kernel, by decide +kernel, by decide +kernel, by decide +kernel⟩

end FastBer.Props
