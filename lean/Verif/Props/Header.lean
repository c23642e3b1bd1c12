import Verif.Proofs.Reader
/-! # Properties C01-C05: identifier octets, length octets, headers -/
namespace FastBer.Props
open FastBer Spec
set_option maxRecDepth 100000

/-- C01.  Whatever buffer `encode_identifier` wrote into (successfully), the octets it reports are
read back as the same class, construction and tag, consuming exactly those octets, whatever follows. -/
theorem C01_identifier_round_trip (c : Class) (k : Construction) (t : Int) (ht : t < 2 ^ 63)
    (out suffix : Bytes) (tag0 : Int) (n : Nat) (out' : Bytes)
    (henc : encodeIdentifier out k c t = (n, out')) (hok : n ≠ 0) :
    extractClass (out'.take n ++ suffix) = some c ∧
    extractConstruction (out'.take n ++ suffix) = some k ∧
    extractTag (out'.take n ++ suffix) tag0 = .ok (n, t) := by
  by_cases h0 : t < 0
  · have := encodeIdentifier_neg out k c t h0
    rw [henc] at this; exact absurd this hok
  · obtain ⟨m, rfl⟩ : ∃ m : Nat, t = m := ⟨t.toNat, by omega⟩
    have hm : m < 2 ^ 63 := by omega
    rcases Nat.lt_or_ge out.length (identifierOctets c k m).length with h | h
    · have := encodeIdentifier_short out k c m h
      rw [henc] at this; exact absurd this hok
    · have := encodeIdentifier_nonneg out k c m h
      rw [henc] at this
      simp only [Prod.mk.injEq] at this
      obtain ⟨rfl, rfl⟩ := this
      rw [List.take_left']
      · refine ⟨?_, ?_, extractTag_identifierOctets c k m suffix tag0 hm⟩
        · unfold identifierOctets
          split
          · simpa [extractClass] using getClass_first c k m (by omega)
          · simpa [extractClass] using getClass_first c k 31 (by omega)
        · unfold identifierOctets
          split
          · simpa [extractConstruction] using getConstruction_first c k m (by omega)
          · simpa [extractConstruction] using getConstruction_first c k 31 (by omega)
      · rfl

/-- Non-vacuity for C01: a three-octet tag in a buffer with old contents. -/
example : encodeIdentifier [1, 2, 3, 4, 5] .constructed .private_ 500 = (3, [0xFF, 0x83, 0x74, 4, 5]) := by
  decide +kernel

theorem base128Cont_head {n : Nat} (h : n ≠ 0) :
    ∃ b tl, base128Cont n = b :: tl ∧ b.toNat ≠ 0x80 := by
  induction n using Nat.strongRecOn with
  | ind n ih =>
    by_cases h0 : n / 128 = 0
    · refine ⟨UInt8.ofNat (128 + n % 128), [], ?_, ?_⟩
      · rw [base128Cont_pos h, h0, base128Cont_zero]; rfl
      · simp; omega
    · obtain ⟨b, tl, e, hb⟩ := ih (n / 128) (by omega) h0
      exact ⟨b, tl ++ [UInt8.ofNat (128 + n % 128)], by rw [base128Cont_pos h, e]; rfl, hb⟩

/-- C02 (success condition and size).  For every `int64_t` tag and every buffer:
`encode_identifier` succeeds exactly when the tag is non-negative and `encoded_tag_length(tag)`
bytes are available, and then returns that size; it never changes the buffer size. -/
theorem C02_identifier_size (c : Class) (k : Construction) (t : Int) (ht : t < 2 ^ 63) (out : Bytes) :
    (encodeIdentifier out k c t).1 =
      (if 0 ≤ t ∧ encodedTagLength t ≤ out.length then encodedTagLength t else 0) ∧
    (encodeIdentifier out k c t).2.length = out.length := by
  refine ⟨?_, length_encodeIdentifier _ _ _ _⟩
  by_cases h0 : t < 0
  · rw [encodeIdentifier_neg out k c t h0, if_neg (by omega)]
  · obtain ⟨m, rfl⟩ : ∃ m : Nat, t = m := ⟨t.toNat, by omega⟩
    have hl := length_identifierOctets c k m (by omega)
    rcases Nat.lt_or_ge out.length (identifierOctets c k m).length with h | h
    · rw [encodeIdentifier_short out k c m h, if_neg (by omega)]
    · rw [encodeIdentifier_nonneg out k c m h, if_pos (by omega)]
      exact hl

/-- C02 (content).  On success the octets are exactly the X.690 identifier octets and every later
byte of the buffer is untouched. -/
theorem C02_identifier_octets (c : Class) (k : Construction) (t : Nat) (ht : t < 2 ^ 63) (out : Bytes)
    (h : encodedTagLength t ≤ out.length) :
    (encodeIdentifier out k c t).2 = identifierOctets c k t ++ out.drop (encodedTagLength t) := by
  have hl := length_identifierOctets c k t ht
  rw [encodeIdentifier_nonneg out k c t (by omega), hl]

/-- C02 (minimality).  One octet iff the tag is at most 30; in the long form the first subsequent
octet is not 0x80 (X.690 8.1.2.4.2 c). -/
theorem C02_identifier_minimal (c : Class) (k : Construction) (t : Nat) :
    ((identifierOctets c k t).length = 1 ↔ t ≤ 30) ∧
    (30 < t → ∃ first second rest, identifierOctets c k t = first :: second :: rest ∧ second.toNat ≠ 0x80) := by
  unfold identifierOctets
  by_cases h : t ≤ 30
  · simp [h]
  · simp only [h, if_false]
    refine ⟨⟨fun hl => ?_, fun h2 => h2.elim⟩, fun _ => ?_⟩
    · have := length_base128_pos t
      simp at hl; simp [hl] at this
    · unfold base128
      by_cases h0 : t / 128 = 0
      · refine ⟨_, UInt8.ofNat (t % 128), [], by rw [h0, base128Cont_zero]; rfl, ?_⟩
        simp; omega
      · obtain ⟨b, tl, e, hb⟩ := base128Cont_head h0
        exact ⟨_, b, _, by rw [e]; rfl, hb⟩

example : (encodeIdentifier [0, 0] .primitive .contextSpecific 128).1 = 0 := by decide +kernel
example : (encodeIdentifier [0, 0, 7] .primitive .contextSpecific 128) = (3, [0x9F, 0x81, 0x00]) := by decide +kernel
example : (encodeIdentifier [9, 9] .primitive .universal (-1)).1 = 0 := by decide

/-- C03 (success, size, octets, frame).  For every 64-bit length and every buffer. -/
theorem C03_length_octets (n : Nat) (hn : n < 2 ^ 64) (out : Bytes) :
    encodeLength out n =
      if encodedLengthLength n ≤ out.length
      then (encodedLengthLength n, lengthOctets n ++ out.drop (encodedLengthLength n))
      else (0, out) := by
  split
  · exact encodeLength_fits out n hn (by assumption)
  · exact encodeLength_short out n (by omega)

/-- C03 (round trip).  `extract_length` at any offset reads the length back, whatever follows. -/
theorem C03_length_round_trip (n : Nat) (hn : n < 2 ^ 64) (out pre suffix : Bytes) (len0 k : Nat) (out' : Bytes)
    (henc : encodeLength out n = (k, out')) (hok : k ≠ 0) :
    extractLength (pre ++ (out'.take k ++ suffix)) len0 pre.length = .ok (k, n) := by
  rw [C03_length_octets n hn] at henc
  split at henc
  · simp only [Prod.mk.injEq] at henc
    obtain ⟨rfl, rfl⟩ := henc
    have hl := length_lengthOctets n hn
    rw [List.take_left' hl, extractLength_lengthOctets _ _ _ _ hn, hl]
  · simp only [Prod.mk.injEq] at henc; omega

/-- C03 (minimality).  Short form iff below 128; otherwise the first length octet of the long form
is non-zero, and no shorter length field denotes the same length. -/
theorem C03_length_minimal (n : Nat) :
    ((lengthOctets n).length = 1 ↔ n < 128) ∧
    (∀ bs k, readLength bs = some (k, n) → (lengthOctets n).length ≤ k) := by
  unfold lengthOctets
  constructor
  · by_cases h : n < 128
    · simp [h]
    · have : base256 n ≠ [] := base256_ne_nil (by omega)
      simp [h, this]
  · intro bs k hr
    cases bs with
    | nil => simp [readLength] at hr
    | cons b rest =>
      simp only [readLength] at hr
      by_cases h1 : b.toNat < 128
      · simp only [h1, if_true, Option.some.injEq, Prod.mk.injEq] at hr
        rw [if_pos (by omega)]; simp; omega
      · simp only [h1, if_false] at hr
        split at hr
        · rename_i h2
          simp only [Option.some.injEq, Prod.mk.injEq] at hr
          obtain ⟨rfl, hv⟩ := hr
          by_cases h : n < 128
          · simp [h]
          · simp only [h, if_false, List.length_cons]
            have hlt := value256_lt (rest.take (b.toNat - 128))
            rw [hv, List.length_take, Nat.min_eq_left (by omega)] at hlt
            -- if base256 n had more octets, n would be at least 256 ^ (octets - 1)
            rcases Nat.lt_or_ge (b.toNat - 128) (base256 n).length with hc | hc
            · exfalso
              have hge : ∀ m : Nat, m ≠ 0 → 256 ^ ((base256 m).length - 1) ≤ m := by
                intro m
                induction m using Nat.strongRecOn with
                | ind m ih =>
                  intro hm
                  rw [base256_pos hm]
                  by_cases hd : m / 256 = 0
                  · simp [hd, base256_zero]; omega
                  · have := ih (m / 256) (by omega) hd
                    have hp : 0 < (base256 (m / 256)).length := List.length_pos_iff.mpr (base256_ne_nil hd)
                    simp only [List.length_append, List.length_cons, List.length_nil]
                    have e : (base256 (m / 256)).length + (0 + 1) - 1 = ((base256 (m / 256)).length - 1) + 1 := by
                      omega
                    rw [e, Nat.pow_succ]; omega
              have h3 := hge n (by omega)
              have h4 : 256 ^ (b.toNat - 128) ≤ 256 ^ ((base256 n).length - 1) :=
                Nat.pow_le_pow_right (by decide) (by omega)
              omega
            · omega
        · cases hr

example : encodeLength [1, 2, 3, 4] 300 = (3, [0x82, 0x01, 0x2C, 4]) := by decide
example : encodeLength [1, 2] 300 = (0, [1, 2]) := by decide

/-- C04.  On arbitrary bytes `extract_length` is exactly the X.690 reader `readLength` (definite
form, 1..8 octets), has no undefined behaviour, and keeps the out parameter on failure. -/
theorem C04_extract_length_exact (bs : Bytes) (len0 off : Nat) (h : off ≤ bs.length) :
    extractLength bs len0 off = .ok ((readLength (bs.drop off)).getD (0, len0)) :=
  extractLength_spec bs len0 off h

/-- C04 (locality): a successful read depends only on the octets it reports. -/
theorem C04_extract_length_local (bs s : Bytes) (len0 off k n : Nat)
    (h : extractLength bs len0 off = .ok (k, n)) (hk : k ≠ 0) :
    extractLength (bs.take (off + k) ++ s) len0 off = .ok (k, n) := by
  rcases extractLength_ok _ _ _ _ _ h with h0 | ⟨_, _, _, _, h3, _⟩
  · omega
  · exact h3 s

example : extractLength [0x80, 0, 0] 7 0 = .ok (0, 7) := by decide
example : extractLength [0x04, 0x82, 0x01, 0x00, 0xAA] 0 1 = .ok (3, 256) := by decide

/-- C05.  Header written into any sufficiently large buffer, followed by the announced number of
content bytes and anything else, parses to a view with the same class, construction, tag and content,
whose `ber()` is exactly header + content. -/
theorem C05_header_round_trip (c : Class) (k : Construction) (t : Int) (ht : 0 ≤ t ∧ t < 2 ^ 63)
    (content suffix out out' : Bytes) (h : Nat)
    (henc : encodeHeader out k c t content.length = (h, out')) (hok : h ≠ 0)
    (hsize : h + content.length < 2 ^ 64) :
    ∃ v, BerView.parse (out'.take h ++ content ++ suffix) = .ok v ∧ v.valid = true ∧
      v.cls = .ok c ∧ v.construction = .ok k ∧ v.tag = t ∧
      v.content = .ok content ∧ v.ber = .ok (out'.take h ++ content) := by
  obtain ⟨m, rfl⟩ : ∃ m : Nat, t = m := ⟨t.toNat, by omega⟩
  have hm : m < 2 ^ 63 := by omega
  have hl := length_header c k m content.length hm (by omega)
  rcases Nat.lt_or_ge out.length (Id.headerLength ⟨c, m⟩ content.length) with hs | hs
  · have := encodeHeader_short out k c m content.length hm hs
    rw [henc] at this; exact absurd this hok
  · rw [encodeHeader_fits out k c m content.length hm (by omega) (by omega)] at henc
    simp only [Prod.mk.injEq] at henc
    obtain ⟨rfl, rfl⟩ := henc
    rw [List.take_left' rfl, ← element]
    have hlen : (element c k m content).length < 2 ^ 64 := by rw [length_element]; omega
    refine ⟨elementView c k m content suffix, assign_element c k m content suffix 0 hm hlen, rfl, ?_⟩
    exact ⟨by simp, by simp, rfl, by simp, elementView_ber c k m content suffix hlen⟩

example : encodeHeader [0, 0, 0, 0, 0] .primitive .contextSpecific 31 200 = (4, [0x9F, 0x1F, 0x81, 0xC8, 0]) := by
  decide +kernel

end FastBer.Props
