import Verif.Proofs.Real
import Verif.Proofs.Small
/-! # Properties C27-C29, C67, C68: REAL -/
namespace FastBer.Props
open FastBer Spec

/-! ## Helpers -/

theorem doubleVal_cases (d : UInt64) :
    (expField d = 2047 ∧ fraction d = 0 ∧ doubleVal d = .inf (signBit d == 1)) ∨
    (expField d = 2047 ∧ fraction d ≠ 0 ∧ doubleVal d = .nan) ∨
    (expField d = 0 ∧ doubleVal d = .finite (signBit d == 1) (fraction d) (-1074)) ∨
    (0 < expField d ∧ expField d < 2047 ∧
      doubleVal d = .finite (signBit d == 1) (2 ^ 52 + fraction d) ((expField d : Int) - 1075)) := by
  have := expField_lt d
  unfold doubleVal
  by_cases h : expField d = 2047
  · by_cases h' : fraction d = 0
    · exact .inl ⟨h, h', by rw [if_pos h, if_pos h']⟩
    · exact .inr (.inl ⟨h, h', by rw [if_pos h, if_neg h']⟩)
  · by_cases h' : expField d = 0
    · exact .inr (.inr (.inl ⟨h', by rw [if_neg h, if_pos h']⟩))
    · exact .inr (.inr (.inr ⟨by omega, by omega, by rw [if_neg h, if_neg h']⟩))

/-- The parts of a finite double. -/
theorem doubleVal_finite {d : UInt64} {s : Bool} {n : Nat} {k : Int} (h : doubleVal d = .finite s n k) :
    s = (signBit d == 1) ∧ n < 2 ^ 53 ∧ -1074 ≤ k ∧ k ≤ 971 ∧ (k ≠ -1074 → 2 ^ 52 ≤ n) ∧
    d.toNat = signBit d * 2 ^ 63 + ((k + 1074).toNat * 2 ^ 52 + n) := by
  have h1 := fraction_lt d
  have h2 := double_split d
  rcases doubleVal_cases d with ⟨_, _, e⟩ | ⟨_, _, e⟩ | ⟨h0, e⟩ | ⟨h0, h0', e⟩
  · rw [h] at e; cases e
  · rw [h] at e; cases e
  · rw [h] at e
    simp only [RealVal.finite.injEq] at e
    obtain ⟨rfl, rfl, rfl⟩ := e
    refine ⟨rfl, by omega, by omega, by omega, by omega, ?_⟩
    rw [h2, h0]; omega
  · rw [h] at e
    simp only [RealVal.finite.injEq] at e
    obtain ⟨rfl, rfl, rfl⟩ := e
    refine ⟨rfl, by omega, by omega, by omega, by omega, ?_⟩
    rw [h2]; omega

theorem doubleVal_inj {d d' : UInt64} {s : Bool} {n : Nat} {k : Int} (h : doubleVal d = .finite s n k)
    (h' : doubleVal d' = .finite s n k) : d = d' := by
  obtain ⟨a1, _, _, _, _, a⟩ := doubleVal_finite h
  obtain ⟨b1, _, _, _, _, b⟩ := doubleVal_finite h'
  have hs := sign_lt d
  have hs' := sign_lt d'
  have : signBit d = signBit d' := by
    rw [a1] at b1
    rcases Nat.lt_or_ge (signBit d) 1 with h1 | h1 <;> rcases Nat.lt_or_ge (signBit d') 1 with h2 | h2
    · omega
    · rw [show signBit d = 0 by omega, show signBit d' = 1 by omega] at b1; cases b1
    · rw [show signBit d = 1 by omega, show signBit d' = 0 by omega] at b1; cases b1
    · omega
  refine UInt64.toNat_inj.mp ?_
  rw [a, b, this]

theorem floorScale_split (m : Nat) {a b : Int} (h : a ≤ b) : floorScale m a = floorScale m b / 2 ^ (b - a).toNat := by
  rw [floorScale_div]; congr 1; omega

/-- There is at most one truncation. -/
theorem truncated_unique {s : Bool} {m : Nat} {e : Int} {d d' : UInt64} {n : Nat} {k : Int}
    (h : Truncated s m e d) (h' : Truncated s m e d') (hf : doubleVal d = .finite s n k) : d = d' := by
  have key : ∀ {n1 n2 : Nat} {k1 k2 : Int}, k1 < k2 → n1 = floorScale m (e - k1) → n2 = floorScale m (e - k2) →
      2 ^ 52 ≤ n2 → 2 ^ 53 ≤ n1 := by
    intro n1 n2 k1 k2 hk h1 h2 h3
    have := floorScale_split m (show e - k2 ≤ e - k1 by omega)
    rw [← h1, ← h2] at this
    rw [this] at h3
    have h4 := (Nat.le_div_iff_mul_le (Nat.two_pow_pos _)).mp h3
    have h5 : 2 ^ 1 ≤ 2 ^ ((e - k1) - (e - k2)).toNat := Nat.pow_le_pow_right (by decide) (by omega)
    have := Nat.mul_le_mul_left (2 ^ 52) h5
    omega
  unfold Truncated at h h'
  obtain ⟨_, a2, a3, a4, a5, _⟩ := doubleVal_finite hf
  rw [hf] at h
  obtain ⟨_, h1, h2⟩ := h
  cases hd : doubleVal d' with
  | nan => rw [hd] at h'; exact h'.elim
  | inf s' =>
    rw [hd] at h'
    have h3 := floorScale_split m (show e - 1024 ≤ e - k by omega)
    rw [h3, ← h1] at h'
    have h4 := (Nat.le_div_iff_mul_le (Nat.two_pow_pos _)).mp h'.2
    have h5 : 2 ^ 53 ≤ 2 ^ ((e - k) - (e - 1024)).toNat := Nat.pow_le_pow_right (by decide) (by omega)
    omega
  | finite s' n' k' =>
    rw [hd] at h'
    obtain ⟨_, b2, b3, b4, b5, _⟩ := doubleVal_finite hd
    obtain ⟨hs, h3, h4⟩ := h'
    subst hs
    by_cases hk : k = k'
    · subst hk
      rw [← h1] at h3
      subst h3
      exact doubleVal_inj hf hd
    · rcases Int.lt_or_lt_of_ne hk with hlt | hlt
      · have := key hlt h1 h3 (by omega); omega
      · have := key hlt h3 h1 (by omega); omega

theorem twos_one (e : Int) (h : -128 ≤ e ∧ e ≤ 127) : twosComplement [UInt8.ofNat (e % 256).toNat] = e := by
  have h0 := toNat_ofNat (e % 256).toNat
  simp only [twosComplement, value256_cons, value256_nil, List.length_nil, List.length_cons, h0]
  split <;> omega

theorem twos_two (e : Int) (h : -32768 ≤ e ∧ e ≤ 32767) :
    twosComplement [UInt8.ofNat (e / 256 % 256).toNat, UInt8.ofNat (e % 256).toNat] = e := by
  have h0 := toNat_ofNat (e % 256).toNat
  have h1 := toNat_ofNat (e / 256 % 256).toNat
  simp only [twosComplement, value256_cons, value256_nil, List.length_nil, List.length_cons, h0, h1]
  split <;> omega

/-- X.690 value of the binary contents the encoder produces. -/
theorem binary_denotes (s : Nat) (hs : s < 2) (e : Int) (he : -32768 ≤ e ∧ e ≤ 32767) (n : Nat) (hn : n < 2 ^ 56) :
    realContents (realBinaryContent s e n) = some (.finite (s == 1) n e) := by
  have hv := value256_be7 n hn
  by_cases h1 : -128 ≤ e ∧ e ≤ 127
  · have ht := twos_one e h1
    rw [realBinaryContent, if_pos h1, realContents]
    have hb : (UInt8.ofNat (0x80 + s * 64)).toNat = 128 + s * 64 := by rw [toNat_ofNat]; omega
    rw [hb, if_pos (by omega), realBinary, if_neg (by omega), show (128 + s * 64) % 4 = 0 by omega]
    simp only [realParts, List.length_cons, be7_length]
    rw [if_neg (by decide)]
    simp only [Option.bind_eq_bind, show (128 + s * 64) / 16 % 4 = 0 by omega,
      show (128 + s * 64) / 4 % 4 = 0 by omega, show (128 + s * 64) / 64 % 2 = s by omega,
      List.take_succ_cons, List.take_zero, List.drop_succ_cons, List.drop_zero, if_true]
    simp
    exact ⟨hv, ht⟩
  · have ht := twos_two e he
    rw [realBinaryContent, if_neg h1, realContents]
    have hb : (UInt8.ofNat (0x81 + s * 64)).toNat = 129 + s * 64 := by rw [toNat_ofNat]; omega
    rw [hb, if_pos (by omega), realBinary, if_neg (by omega), show (129 + s * 64) % 4 = 1 by omega]
    simp only [realParts, List.length_cons, be7_length]
    rw [if_neg (by decide)]
    simp only [Option.bind_eq_bind, show (129 + s * 64) / 16 % 4 = 0 by omega,
      show (129 + s * 64) / 4 % 4 = 0 by omega, show (129 + s * 64) / 64 % 2 = s by omega,
      List.take_succ_cons, List.take_zero, List.drop_succ_cons, List.drop_zero, if_true]
    simp
    exact ⟨hv, ht⟩

theorem sign_cases (d : UInt64) : (signBit d = 0 ∧ (signBit d == 1) = false) ∨ (signBit d = 1 ∧ (signBit d == 1) = true) := by
  have := sign_lt d
  rcases Nat.lt_or_ge (signBit d) 1 with h | h
  · left; have : signBit d = 0 := by omega
    exact ⟨this, by rw [this]; rfl⟩
  · right; have : signBit d = 1 := by omega
    exact ⟨this, by rw [this]; rfl⟩

/-! ## C67: encoding -/

/-- C67.  Into any buffer of at least ten bytes (`Real` provides 100), `encode_real` writes at most ten contents octets,
leaves the rest of the buffer alone, and what it writes denotes, by X.690 8.5, exactly the value of the double. -/
theorem C67_encode_denotes (d : UInt64) (out : Bytes) (h : 10 ≤ out.length) :
    ∃ c v, encodeReal out d = .ok (c.length, c ++ out.drop c.length) ∧ c.length ≤ 10 ∧
      realContents c = some v ∧ v.Same (doubleVal d) := by
  have hl := realContent_length d
  have hfr := fraction_lt d
  have hsg := sign_lt d
  refine ⟨realContent d, ?_⟩
  suffices ∃ v, realContents (realContent d) = some v ∧ v.Same (doubleVal d) by
    obtain ⟨v, h1, h2⟩ := this
    exact ⟨v, encodeReal_ok out d (by omega), hl, h1, h2⟩
  unfold realContent
  rcases doubleVal_cases d with ⟨h1, h2, e⟩ | ⟨h1, h2, e⟩ | ⟨h1, e⟩ | ⟨h1, h2, e⟩
  · rw [if_pos h1, if_pos h2, e]
    rcases sign_cases d with ⟨h3, h4⟩ | ⟨h3, h4⟩
    · rw [if_pos h3, h4]; exact ⟨_, rfl, rfl⟩
    · rw [if_neg (by omega), h4]; exact ⟨_, rfl, rfl⟩
  · rw [if_pos h1, if_neg h2, e]; exact ⟨_, rfl, trivial⟩
  · rw [if_neg (by omega), if_pos h1, e]
    by_cases h2 : fraction d = 0
    · rw [if_pos h2, h2]
      rcases sign_cases d with ⟨h3, h4⟩ | ⟨h3, h4⟩
      · rw [if_pos h3, h4]; exact ⟨_, rfl, rfl, by simp only [Nat.zero_mul]⟩
      · rw [if_neg (by omega), h4]; exact ⟨_, rfl, rfl, by simp only [Nat.zero_mul]⟩
    · rw [if_neg h2]
      refine ⟨_, binary_denotes _ hsg _ (by omega) _ (by omega), rfl, ?_⟩
      simp only [show (-1075 - -1074 : Int).toNat = 0 by decide, show (-1074 - -1075 : Int).toNat = 1 by decide]; omega
  · rw [if_neg (by omega), if_neg (by omega), e]
    exact ⟨_, binary_denotes _ hsg _ (by omega) _ (by omega), rfl, by rw [Int.sub_self]⟩

/-- 1.5 = 0x3FF8000000000000 → 80 CC 18 00 00 00 00 00 00 = 0x18000000000000 · 2^-52. -/
example : encodeReal (List.replicate 10 0) 0x3FF8000000000000 = .ok (9, [0x80, 0xCC, 0x18, 0, 0, 0, 0, 0, 0, 0]) := by
  decide +kernel

/-! ## C27: special values -/

/-- C27.  +∞, -∞, NaN, -0 and +0 are encoded as X.690 8.5.9 / 8.5.2 say and decode to the same value (every NaN to the
quiet NaN). -/
theorem C27_special_values (d : UInt64) (out : Bytes) (h : 1 ≤ out.length) (dec : Bool → Nat → Int → UInt64) :
    (doubleVal d = .inf false → encodeReal out d = .ok (1, [0x40] ++ out.drop 1) ∧ decodeReal dec [0x40] = .ok (some d)) ∧
    (doubleVal d = .inf true → encodeReal out d = .ok (1, [0x41] ++ out.drop 1) ∧ decodeReal dec [0x41] = .ok (some d)) ∧
    (doubleVal d = .nan → encodeReal out d = .ok (1, [0x42] ++ out.drop 1) ∧
      ∃ d', decodeReal dec [0x42] = .ok (some d') ∧ doubleVal d' = .nan) ∧
    (doubleVal d = .finite true 0 (-1074) → encodeReal out d = .ok (1, [0x43] ++ out.drop 1) ∧
      decodeReal dec [0x43] = .ok (some d)) ∧
    (doubleVal d = .finite false 0 (-1074) → encodeReal out d = .ok (0, out) ∧ decodeReal dec [] = .ok (some d)) := by
  have hds := double_split d
  have enc : (realContent d).length ≤ 1 → encodeReal out d =
      .ok ((realContent d).length, realContent d ++ out.drop (realContent d).length) :=
    fun hl => encodeReal_ok out d (by omega)
  have hsg := sign_cases d
  have hcs := doubleVal_cases d
  refine ⟨fun hd => ?_, fun hd => ?_, fun hd => ?_, fun hd => ?_, fun hd => ?_⟩
  · rcases hcs with ⟨h1, h2, e⟩ | ⟨h1, h2, e⟩ | ⟨h1, e⟩ | ⟨h1, h2, e⟩ <;> rw [hd] at e <;> try cases e
    simp only [RealVal.inf.injEq] at e
    have h3 : signBit d = 0 := by
      rcases hsg with ⟨h3, _⟩ | ⟨_, h4⟩
      · exact h3
      · rw [h4] at e; cases e
    have hrc : realContent d = [0x40] := by rw [realContent, if_pos h1, if_pos h2, if_pos h3]
    rw [hrc] at enc
    refine ⟨enc (by decide), ?_⟩
    have : d = plusInf := UInt64.toNat_inj.mp (by rw [hds, h1, h2, h3]; decide)
    rw [this]; rfl
  · rcases hcs with ⟨h1, h2, e⟩ | ⟨h1, h2, e⟩ | ⟨h1, e⟩ | ⟨h1, h2, e⟩ <;> rw [hd] at e <;> try cases e
    simp only [RealVal.inf.injEq] at e
    have h3 : signBit d = 1 := by
      rcases hsg with ⟨_, h4⟩ | ⟨h3, _⟩
      · rw [h4] at e; cases e
      · exact h3
    have hrc : realContent d = [0x41] := by rw [realContent, if_pos h1, if_pos h2, if_neg (by omega)]
    rw [hrc] at enc
    refine ⟨enc (by decide), ?_⟩
    have : d = minusInf := UInt64.toNat_inj.mp (by rw [hds, h1, h2, h3]; decide)
    rw [this]; rfl
  · rcases hcs with ⟨h1, h2, e⟩ | ⟨h1, h2, e⟩ | ⟨h1, e⟩ | ⟨h1, h2, e⟩ <;> rw [hd] at e <;> try cases e
    have hrc : realContent d = [0x42] := by rw [realContent, if_pos h1, if_neg h2]
    rw [hrc] at enc
    exact ⟨enc (by decide), quietNaN, rfl, by decide⟩
  · rcases hcs with ⟨h1, h2, e⟩ | ⟨h1, h2, e⟩ | ⟨h1, e⟩ | ⟨h1, h2, e⟩ <;> rw [hd] at e <;> try cases e
    · simp only [RealVal.finite.injEq] at e
      obtain ⟨e1, e2, _⟩ := e
      have h3 : signBit d = 1 := by
        rcases hsg with ⟨_, h4⟩ | ⟨h3, _⟩
        · rw [h4] at e1; cases e1
        · exact h3
      have hrc : realContent d = [0x43] := by
        rw [realContent, if_neg (by omega), if_pos h1, if_pos e2.symm, if_neg (by omega)]
      rw [hrc] at enc
      refine ⟨enc (by decide), ?_⟩
      have : d = minusZero := UInt64.toNat_inj.mp (by rw [hds, h1, h3, ← e2]; decide)
      rw [this]; rfl
    · simp only [RealVal.finite.injEq] at e; omega
  · rcases hcs with ⟨h1, h2, e⟩ | ⟨h1, h2, e⟩ | ⟨h1, e⟩ | ⟨h1, h2, e⟩ <;> rw [hd] at e <;> try cases e
    · simp only [RealVal.finite.injEq] at e
      obtain ⟨e1, e2, _⟩ := e
      have h3 : signBit d = 0 := by
        rcases hsg with ⟨h3, _⟩ | ⟨_, h4⟩
        · exact h3
        · rw [h4] at e1; cases e1
      have hrc : realContent d = [] := by
        rw [realContent, if_neg (by omega), if_pos h1, if_pos e2.symm, if_pos h3]
      rw [hrc] at enc
      refine ⟨by simpa using enc (by decide), ?_⟩
      have : d = 0 := UInt64.toNat_inj.mp (by rw [hds, h1, h3, ← e2]; decide)
      rw [this]; rfl
    · simp only [RealVal.finite.injEq] at e; omega

example : doubleVal 0x7FF0000000000000 = .inf false ∧ doubleVal 0x7FF0000000000001 = .nan ∧
    doubleVal 0x8000000000000000 = .finite true 0 (-1074) := by decide

/-! ## C28: round trip of finite values -/

theorem floorScale_fixed {n : Nat} (hn : 0 < n) {k : Int} (h : n = floorScale n k) : k = 0 := by
  rcases Int.lt_trichotomy k 0 with hk | hk | hk
  · have h1 := floorScale_neg n (-k).toNat
    rw [show -((-k).toNat : Int) = k by omega, ← h] at h1
    have h2 : 2 ^ 1 ≤ 2 ^ (-k).toNat := Nat.pow_le_pow_right (by decide) (by omega)
    have h3 := Nat.div_lt_self hn (show 1 < 2 ^ (-k).toNat by omega)
    omega
  · exact hk
  · have h1 := floorScale_nonneg n k.toNat
    rw [show (k.toNat : Int) = k by omega, ← h] at h1
    have h2 : 2 ^ 1 ≤ 2 ^ k.toNat := Nat.pow_le_pow_right (by decide) (by omega)
    have h3 := Nat.mul_le_mul_left n h2
    omega

/-- The exponent the decoder uses for what the encoder wrote. -/
def misread (e : Int) : Int := if -128 ≤ e ∧ e ≤ 127 then e else e / 256

theorem twos_high (e : Int) (h : -32768 ≤ e ∧ e ≤ 32767) :
    twosComplement [UInt8.ofNat (e / 256 % 256).toNat] = e / 256 := by
  have h1 := toNat_ofNat (e / 256 % 256).toNat
  simp only [twosComplement, value256_cons, value256_nil, List.length_nil, List.length_cons, h1]
  split <;> omega

/-- Decoding what the encoder writes: the mantissa with the (mis)read exponent. -/
theorem decode_written (dec : Bool → Nat → Int → UInt64) (s : Nat) (hs : s < 2) (e : Int) (he : -32768 ≤ e ∧ e ≤ 32767)
    (n : Nat) (hn : n < 2 ^ 56) (hn0 : n ≠ 0) :
    decodeReal dec (realBinaryContent s e n) = decodeMantissa (misread e) s (be7 n) := by
  have hv := value256_be7 n hn
  by_cases h1 : -128 ≤ e ∧ e ≤ 127
  · have hb : (UInt8.ofNat (0x80 + s * 64)).toNat = 128 + s * 64 := by rw [toNat_ofNat]; omega
    rw [realBinaryContent, if_pos h1, decodeReal, if_neg (by simp), at_cons_zero, Exec.ok_bind,
      if_pos ((control_bits _).2.2.2.2.2.1.mpr (by rw [hb]; omega))]
    have hp : realParts ((UInt8.ofNat (0x80 + s * 64)).toNat % 4) (UInt8.ofNat (e % 256).toNat :: be7 n) =
        some ([UInt8.ofNat (e % 256).toNat], be7 n) := by
      rw [hb, show (128 + s * 64) % 4 = 0 by omega]; rfl
    rcases decodeRealBinary_eq (UInt8.ofNat (0x80 + s * 64)) (UInt8.ofNat (e % 256).toNat :: be7 n) with ⟨hno, _⟩ | ⟨ex, m, _, _, h3, _, _, _, _, _, h4⟩
    · exact absurd ⟨_, _, by simp [be7_length], by rw [hb]; omega, hp, trivial, by rw [hv]; exact hn0, by simp⟩ hno
    · rw [hp] at h3
      simp only [Option.some.injEq, Prod.mk.injEq] at h3
      rw [h4, ← h3.2, hb, show (128 + s * 64) / 16 % 4 = 0 by omega, show (128 + s * 64) / 4 % 4 = 0 by omega,
        show (128 + s * 64) / 64 % 2 = s by omega]
      congr 1
      rw [codeExponent, if_neg (by rw [hb]; omega), List.take_succ_cons, List.take_zero, twos_one e h1, misread, if_pos h1]
      simp [baseScale]
  · have hb : (UInt8.ofNat (0x81 + s * 64)).toNat = 129 + s * 64 := by rw [toNat_ofNat]; omega
    rw [realBinaryContent, if_neg h1, decodeReal, if_neg (by simp), at_cons_zero, Exec.ok_bind,
      if_pos ((control_bits _).2.2.2.2.2.1.mpr (by rw [hb]; omega))]
    have hp : realParts ((UInt8.ofNat (0x81 + s * 64)).toNat % 4)
        (UInt8.ofNat (e / 256 % 256).toNat :: UInt8.ofNat (e % 256).toNat :: be7 n) =
        some ([UInt8.ofNat (e / 256 % 256).toNat, UInt8.ofNat (e % 256).toNat], be7 n) := by
      rw [hb, show (129 + s * 64) % 4 = 1 by omega]; rfl
    have hmin : minimalInt [UInt8.ofNat (e / 256 % 256).toNat, UInt8.ofNat (e % 256).toNat] := by
      simp only [minimalInt, toNat_ofNat]; omega
    rcases decodeRealBinary_eq (UInt8.ofNat (0x81 + s * 64))
      (UInt8.ofNat (e / 256 % 256).toNat :: UInt8.ofNat (e % 256).toNat :: be7 n) with ⟨hno, _⟩ | ⟨ex, m, _, _, h3, _, _, _, _, _, h4⟩
    · exact absurd ⟨_, _, by simp [be7_length], by rw [hb]; omega, hp, hmin, by rw [hv]; exact hn0, by simp⟩ hno
    · rw [hp] at h3
      simp only [Option.some.injEq, Prod.mk.injEq] at h3
      rw [h4, ← h3.2, hb, show (129 + s * 64) / 16 % 4 = 0 by omega, show (129 + s * 64) / 4 % 4 = 0 by omega,
        show (129 + s * 64) / 64 % 2 = s by omega]
      congr 1
      rw [codeExponent, if_neg (by rw [hb]; omega), List.take_succ_cons, List.take_zero, twos_high e he, misread, if_neg h1]
      simp [baseScale]

/-- A non-zero finite double decodes to the truncation with the misread exponent, or not at all. -/
theorem decode_content (dec : Bool → Nat → Int → UInt64) (s : Nat) (hs : s < 2) (e : Int) (he : -2000 ≤ e ∧ e ≤ 2000)
    (n : Nat) (hn : n < 2 ^ 56) (hn0 : n ≠ 0) :
    decodeReal dec (realBinaryContent s e n) = .loop ∨
    ∃ d', decodeReal dec (realBinaryContent s e n) = .ok (some d') ∧ Truncated (s == 1) n (misread e) d' := by
  have hv := value256_be7 n hn
  have hm : -2000 ≤ misread e ∧ misread e ≤ 2000 := by unfold misread; split <;> omega
  rw [decode_written dec s hs e (by omega) n hn hn0]
  obtain ⟨z, b, tl, h1, h2⟩ := mantissa_split (m := be7 n) (by rw [hv]; exact hn0)
  have hl : (be7 n).length = z + (tl.length + 1) := by rw [h1]; simp
  rw [be7_length] at hl
  rcases decodeMantissa_eq (e := misread e) (z := z) (tl := tl) hs h2 (by omega) (by omega) with ⟨_, _, h3⟩ | ⟨_, d', h3, h4⟩
  · left; rw [h1]; exact h3
  · right
    rw [← h1] at h3 h4
    rw [hv] at h4
    exact ⟨d', h3, h4⟩

/-- With 53 significant bits the mantissa loop does not occur. -/
theorem decode_normal (dec : Bool → Nat → Int → UInt64) (s : Nat) (hs : s < 2) (e : Int) (he : -2000 ≤ e ∧ e ≤ 2000)
    (n : Nat) (hn : n < 2 ^ 53) (hn0 : 2 ^ 52 ≤ n) :
    ∃ d', decodeReal dec (realBinaryContent s e n) = .ok (some d') ∧ Truncated (s == 1) n (misread e) d' := by
  have hv := value256_be7 n (by omega)
  have hm : -2000 ≤ misread e ∧ misread e ≤ 2000 := by unfold misread; split <;> omega
  rw [decode_written dec s hs e (by omega) n (by omega) (by omega)]
  have hb : (UInt8.ofNat (n / 2 ^ 48)).toNat = n / 2 ^ 48 := by rw [toNat_ofNat]; omega
  rcases decodeMantissa_eq (e := misread e) (z := 0) (b := UInt8.ofNat (n / 2 ^ 48)) (tl := (be7 n).tail) hs
    (fun h => by rw [h] at hb; simp at hb; omega) (by simp [be7]) (by omega) with ⟨h3, _, _⟩ | ⟨_, d', h3, h4⟩
  · omega
  · refine ⟨d', h3, ?_⟩
    have : value256 (List.replicate 0 0 ++ UInt8.ofNat (n / 2 ^ 48) :: (be7 n).tail) = n := hv
    rwa [this] at h4

/-- C28, full statement: every finite double survives encoding and decoding. -/
def C28_statement : Prop := ∀ (dec : Bool → Nat → Int → UInt64) (out : Bytes) (d : UInt64) (n : Nat) (area : Bytes),
  100 ≤ out.length → (∃ s m k, doubleVal d = .finite s m k) → encodeReal out d = .ok (n, area) →
  decodeReal dec (area.take n) = .ok (some d)

theorem encode_take {out : Bytes} {d : UInt64} {n : Nat} {area : Bytes} (h : 100 ≤ out.length)
    (he : encodeReal out d = .ok (n, area)) : area.take n = realContent d := by
  have := realContent_length d
  rw [encodeReal_ok out d (by omega)] at he
  simp only [Exec.ok.injEq, Prod.mk.injEq] at he
  rw [← he.1, ← he.2]
  simp

/-- C28 (part).  A finite double survives encoding and decoding **exactly** when it is zero or its magnitude lies in
`[2^-76, 2^180)` (exponent field 947 … 1202, so that the binary exponent of the 53 bit mantissa fits one octet).  Outside
that range the decoder reads only the first of the two exponent octets.  The full statement is `C28_violated` below. -/
theorem C28_round_trip_partial (dec : Bool → Nat → Int → UInt64) (out : Bytes) (d : UInt64) (n : Nat) (area : Bytes)
    (hout : 100 ≤ out.length) (hd : ∃ s m k, doubleVal d = .finite s m k) (he : encodeReal out d = .ok (n, area)) :
    decodeReal dec (area.take n) = .ok (some d) ↔
      (expField d = 0 ∧ fraction d = 0) ∨ (947 ≤ expField d ∧ expField d ≤ 1202) := by
  rw [encode_take hout he]
  have hfr := fraction_lt d
  have hsg := sign_lt d
  obtain ⟨s, m, k, hd⟩ := hd
  have key : ∀ d', decodeReal dec (realContent d) = .ok (some d') → (decodeReal dec (realContent d) = .ok (some d) ↔ d' = d) := by
    intro d' h; rw [h]; simp
  rcases doubleVal_cases d with ⟨h1, h2, e⟩ | ⟨h1, h2, e⟩ | ⟨h1, e⟩ | ⟨h1, h2, e⟩
  · rw [hd] at e; cases e
  · rw [hd] at e; cases e
  · by_cases h0 : fraction d = 0
    · refine ⟨fun _ => .inl ⟨h1, h0⟩, fun _ => ?_⟩
      rw [h0] at e
      obtain ⟨_, _, _, c4, c5⟩ := C27_special_values d out (by omega) dec
      have hrc : realContent d = if signBit d = 0 then [] else [0x43] := by
        rw [realContent, if_neg (by omega), if_pos h1, if_pos h0]
      rcases sign_cases d with ⟨h3, h4⟩ | ⟨h3, h4⟩
      · rw [h4] at e; rw [hrc, if_pos h3]; exact (c5 e).2
      · rw [h4] at e; rw [hrc, if_neg (by omega)]; exact (c4 e).2
    · refine ⟨fun h => ?_, fun h => by omega⟩
      exfalso
      have hrc : realContent d = realBinaryContent (signBit d) (-1075) (2 * fraction d) := by
        rw [realContent, if_neg (by omega), if_pos h1, if_neg h0]
      rw [hrc] at h
      rcases decode_content dec (signBit d) hsg (-1075) (by omega) (2 * fraction d) (by omega) (by omega) with h3 | ⟨d', h3, h4⟩
      · rw [h3] at h; cases h
      · rw [h3] at h
        simp only [Exec.ok.injEq, Option.some.injEq] at h
        subst h
        simp only [Truncated, e] at h4
        have h5 := h4.2.1
        rw [show misread (-1075) = -5 by decide, show (-5 - -1074 : Int) = ((1069 : Nat) : Int) by decide,
          floorScale_nonneg] at h5
        have : 1 ≤ 2 ^ 1069 := Nat.two_pow_pos _
        have := Nat.mul_le_mul_left (2 * fraction d') this
        omega
  · have hrc : realContent d = realBinaryContent (signBit d) ((expField d : Int) - 1075) (2 ^ 52 + fraction d) := by
      rw [realContent, if_neg (by omega), if_neg (by omega)]
    obtain ⟨d', h3, h4⟩ := decode_normal dec (signBit d) hsg ((expField d : Int) - 1075) (by omega) (2 ^ 52 + fraction d)
      (by omega) (by omega)
    rw [← hrc] at h3
    rw [key d' h3]
    constructor
    · rintro rfl
      right
      simp only [Truncated, e] at h4
      have h5 := floorScale_fixed (by omega) h4.2.1
      unfold misread at h5
      split at h5 <;> omega
    · intro h5
      have h6 : misread ((expField d : Int) - 1075) = (expField d : Int) - 1075 := by
        unfold misread; rw [if_pos (by omega)]
      rw [h6] at h4
      refine (truncated_unique (s := signBit d == 1) (m := 2 ^ 52 + fraction d) (e := (expField d : Int) - 1075) ?_ h4 e).symm
      simp only [Truncated, e, Int.sub_self]
      refine ⟨trivial, ?_, .inr (by omega)⟩
      simp [floorScale]

/-- C28 is false: 2^200 (0x4C70000000000000) decodes to 2^52, without an error. -/
theorem C28_violated : ¬ C28_statement := by
  intro h
  have := h (fun _ _ _ => 0) (List.replicate 100 0) 0x4C70000000000000 10
    ([0x81, 0, 0x94, 0x10, 0, 0, 0, 0, 0, 0] ++ List.replicate 90 0) (by decide) ⟨false, 2 ^ 52, 148, by decide⟩ (by decide +kernel)
  revert this; decide +kernel

/-- C28, what happens to the values outside the range: a normal double decodes to the value with a wrong exponent. -/
theorem C28_wrong_exponent_partial (dec : Bool → Nat → Int → UInt64) (out : Bytes) (d : UInt64) (n : Nat) (area : Bytes)
    (hout : 100 ≤ out.length) (s : Bool) (m : Nat) (k : Int) (hd : doubleVal d = .finite s m k) (hnormal : 2 ^ 52 ≤ m)
    (hk : k < -128 ∨ 127 < k) (he : encodeReal out d = .ok (n, area)) :
    ∃ d', decodeReal dec (area.take n) = .ok (some d') ∧ Truncated s m (k / 256) d' := by
  rw [encode_take hout he]
  have hfr := fraction_lt d
  have hsg := sign_lt d
  rcases doubleVal_cases d with ⟨h1, h2, e⟩ | ⟨h1, h2, e⟩ | ⟨h1, e⟩ | ⟨h1, h2, e⟩
  · rw [hd] at e; cases e
  · rw [hd] at e; cases e
  · rw [hd] at e; simp only [RealVal.finite.injEq] at e; omega
  · rw [hd] at e; simp only [RealVal.finite.injEq] at e
    obtain ⟨rfl, rfl, rfl⟩ := e
    have hrc : realContent d = realBinaryContent (signBit d) ((expField d : Int) - 1075) (2 ^ 52 + fraction d) := by
      rw [realContent, if_neg (by omega), if_neg (by omega)]
    obtain ⟨d', h3, h4⟩ := decode_normal dec (signBit d) hsg ((expField d : Int) - 1075) (by omega) (2 ^ 52 + fraction d)
      (by omega) (by omega)
    rw [← hrc] at h3
    refine ⟨d', h3, ?_⟩
    rwa [misread, if_neg (by omega)] at h4

/-- C28 / C67 on objects: assigning a double to any `Real` object that holds some content stores contents octets that
denote the double, `value()` decodes exactly those octets, and so the object gives the double back when it is zero,
infinite, or within the range of `C28_round_trip_partial`. -/
theorem C28_object_partial (dec : Bool → Nat → Int → UInt64) (id : Ident) (hid : identOk id) (c d : Bytes)
    (hd : SmallWf id 100 c d) (v : UInt64) :
    ∃ c' d' r, Real.assign id d v = .ok d' ∧ SmallWf id 100 c' d' ∧ realContents c' = some r ∧ r.Same (doubleVal v) ∧
      Real.value dec id d' = (do let x ← decodeReal dec c'; .ok (x.getD 0)) ∧
      ((∃ b, doubleVal v = .inf b) ∨ (expField v = 0 ∧ fraction v = 0) ∨ (947 ≤ expField v ∧ expField v ≤ 1202) →
        Real.value dec id d' = .ok v) := by
  have hl := hd.length hid (by omega)
  have ha : ((d.drop (id.headerLength 0)).take 100).length = 100 := by simp; omega
  obtain ⟨c', r, h1, h2, h3, h4⟩ := C67_encode_denotes v ((d.drop (id.headerLength 0)).take 100) (by omega)
  have hset := hd.set hid (by omega) (c' ++ ((d.drop (id.headerLength 0)).take 100).drop c'.length)
    (by rw [List.length_append, List.length_drop, ha]; omega) c'.length (by simp)
  rw [List.take_left'  rfl] at hset
  have hval : Real.value dec id (Small.setContentLength id
      (writeAt d (id.headerLength 0) (c' ++ ((d.drop (id.headerLength 0)).take 100).drop c'.length)) c'.length) =
      (do let x ← decodeReal dec c'; .ok (x.getD 0)) := by
    rw [Real.value, hset.content hid (by omega)]; rfl
  refine ⟨c', _, r, ?_, hset, h3, h4, hval, ?_⟩
  · rw [Real.assign, if_pos (by omega), h1]; rfl
  · intro hrange
    rw [hval]
    suffices decodeReal dec c' = .ok (some v) by rw [this]; rfl
    have htake : (c' ++ ((d.drop (id.headerLength 0)).take 100).drop c'.length).take c'.length = c' := by simp
    rcases hrange with ⟨b, hb⟩ | hrange
    · have hc := encode_take (by omega) h1
      rw [htake] at hc
      obtain ⟨c1, c2, _⟩ := C27_special_values v (List.replicate 100 0) (by simp) dec
      cases b with
      | false =>
        obtain ⟨e1, e2⟩ := c1 hb
        rw [hc, ← encode_take (by simp) e1]; exact e2
      | true =>
        obtain ⟨e1, e2⟩ := c2 hb
        rw [hc, ← encode_take (by simp) e1]; exact e2
    · have hfin : ∃ s m k, doubleVal v = .finite s m k := by
        rcases doubleVal_cases v with ⟨g1, g2, e⟩ | ⟨g1, g2, e⟩ | ⟨g1, e⟩ | ⟨g1, g2, e⟩
        · omega
        · omega
        · exact ⟨_, _, _, e⟩
        · exact ⟨_, _, _, e⟩
      have := (C28_round_trip_partial dec _ v _ _ (by omega) hfin h1).mpr hrange
      rwa [htake] at this

/-- A `Real()` meets the hypothesis. -/
example : SmallWf (.single ⟨.universal, 9⟩) 100 [] (Real.default (.single ⟨.universal, 9⟩)) :=
  SmallWf.init (by simp [identOk, idOk]) 100

/-- C28: the object API on the smallest positive double (5e-324): `Real(5e-324).value()` never returns. -/
example : (do let r ← Real.assign (.single ⟨.universal, 9⟩) (Real.default (.single ⟨.universal, 9⟩)) 1
              Real.value (fun _ _ _ => 0) (.single ⟨.universal, 9⟩) r) = .loop := by decide +kernel

/-- C28: hypotheses met by 1.5. -/
example : decodeReal (fun _ _ _ => 0) [0x80, 0xCC, 0x18, 0, 0, 0, 0, 0, 0] = .ok (some 0x3FF8000000000000) := by decide +kernel

/-! ## C29: termination -/

/-- C29, full statement: decoding a REAL ends, whatever the contents octets. -/
def C29_statement : Prop := ∀ (dec : Bool → Nat → Int → UInt64) (c : Bytes), ∃ r, decodeReal dec c = .ok r

/-- C29 is false: `80 00 00 01` (the value 1.0 in BER) makes the decoder spin for ever. -/
theorem C29_violated : ¬ C29_statement := by
  intro h
  obtain ⟨r, h⟩ := h (fun _ _ _ => 0) [0x80, 0, 0, 1]
  rw [show decodeReal (fun _ _ _ => 0) [0x80, 0, 0, 1] = .loop by decide +kernel] at h
  cases h

/-- C29 is false in another way: for a lone decimal form octet, such as `03`, `&input[1]` is outside the contents. -/
theorem C29_violated_decimal : decodeReal (fun _ _ _ => 0) [3] = .ub := rfl

/-- When the decoder spins: a binary form it accepts, whose first mantissa octet other than zero is below 16, unless the
magnitude is so small that no normalisation is needed. -/
def RealHangs (c : Bytes) : Prop :=
  ∃ b rest ex z f tl, c = b :: rest ∧ 128 ≤ b.toNat ∧ 3 ≤ rest.length ∧ b.toNat / 16 % 4 ≠ 3 ∧
    realParts (b.toNat % 4) rest = some (ex, List.replicate z 0 ++ f :: tl) ∧ minimalInt ex ∧ ex.length ≤ 4 ∧
    f ≠ 0 ∧ f.toNat < 16 ∧
    0 < codeExponent b rest * baseScale (b.toNat / 16 % 4) + (b.toNat / 4 % 4 : Nat) + 8 * ((tl.length : Int) - 6) + 1075

theorem replicate_split_unique {z z' : Nat} {f f' : UInt8} {tl tl' : Bytes} (hf : f ≠ 0) (hf' : f' ≠ 0)
    (h : List.replicate z (0 : UInt8) ++ f :: tl = List.replicate z' 0 ++ f' :: tl') : f = f' ∧ tl = tl' := by
  have h1 := skip_eq z f tl hf
  rw [h, skip_eq z' f' tl' hf'] at h1
  simp only [List.cons.injEq] at h1
  exact ⟨h1.1.symm, h1.2.symm⟩

/-- A decimal form octet without a number after it. -/
def BareForm (c : Bytes) : Prop := ∃ b : UInt8, c = [b] ∧ b.toNat < 64

/-- C29 (part): decoding reads outside the contents octets exactly on `BareForm`, and otherwise ends exactly when the contents are
not of the shape `RealHangs` (contents below 128 MiB).  The full statement is `C29_violated`. -/
theorem C29_terminates_partial (dec : Bool → Nat → Int → UInt64) (c : Bytes) (hc : c.length < 2 ^ 27) :
    (RealHangs c ∧ decodeReal dec c = .loop) ∨ (BareForm c ∧ decodeReal dec c = .ub) ∨
    (¬ RealHangs c ∧ ¬ BareForm c ∧ ∃ r, decodeReal dec c = .ok r) := by
  cases c with
  | nil => exact .inr (.inr ⟨fun ⟨_, _, _, _, _, _, h, _⟩ => (by cases h), fun ⟨_, h, _⟩ => (by cases h), _, rfl⟩)
  | cons b rest =>
    have hb := control_bits b
    simp only [List.length_cons] at hc
    by_cases h1 : 128 ≤ b.toNat
    · have hd : decodeReal dec (b :: rest) = decodeRealBinary (b :: rest) := by
        rw [decodeReal, if_neg (by simp), at_cons_zero, Exec.ok_bind, if_pos (hb.2.2.2.2.2.1.mpr h1)]
      have nb : ¬ BareForm (b :: rest) := by rintro ⟨b', h, hlt⟩; cases h; omega
      rw [hd]
      rcases decodeRealBinary_eq b rest with ⟨hno, h2⟩ | ⟨ex, n, g1, g2, g3, g4, g5, g6, g7, g8, g9⟩
      · refine .inr (.inr ⟨?_, nb, _, h2⟩)
        rintro ⟨b', rest', ex, z, f, tl, hh, k1, k2, k3, k4, k5, k6, k7, k8, k9⟩
        cases hh
        refine hno ⟨ex, _, k2, k3, k4, k5, ?_, k6⟩
        rw [value256_app, value256_zeros, value256_cons]
        have : 0 < f.toNat := by
          rcases Nat.eq_zero_or_pos f.toNat with h | h
          · exact absurd (byte_ext (by simpa using h)) k7
          · exact h
        have := Nat.mul_pos this (Nat.pow_pos (n := tl.length) (show 0 < 256 by decide))
        omega
      · obtain ⟨z, f, tl, rfl, hf⟩ := mantissa_split g5
        have hl : tl.length < 2 ^ 27 := by
          simp only [List.length_append, List.length_replicate, List.length_cons] at g7; omega
        rw [g9]
        rcases decodeMantissa_eq (z := z) (tl := tl) (show b.toNat / 64 % 2 < 2 by omega) hf hl g8 with
          ⟨m1, m2, m3⟩ | ⟨m1, d, m2, _⟩
        · exact .inl ⟨⟨b, rest, ex, z, f, tl, rfl, h1, g1, g2, g3, g4, g6, hf, m1, m2⟩, m3⟩
        · refine .inr (.inr ⟨?_, nb, _, m2⟩)
          rintro ⟨b', rest', ex', z', f', tl', hh, k1, k2, k3, k4, k5, k6, k7, k8, k9⟩
          cases hh
          rw [g3] at k4
          simp only [Option.some.injEq, Prod.mk.injEq] at k4
          obtain ⟨rfl, rfl⟩ := replicate_split_unique hf k7 k4.2
          exact m1 ⟨k8, k9⟩
    · have nh : ¬ RealHangs (b :: rest) := by
        rintro ⟨b', rest', ex, z, f, tl, hh, k1, _⟩
        cases hh; exact h1 k1
      have h64 : (b &&& 0xC0) = 0 ↔ b.toNat < 64 := by
        clear hb h1 nh; revert b; exact forall_byte (by decide +kernel)
      rw [decodeReal, if_neg (by simp), at_cons_zero, Exec.ok_bind, if_neg (fun h => h1 (hb.2.2.2.2.2.1.mp h))]
      by_cases h2 : (b &&& 0xC0) = 0
      · rw [if_pos h2, decodeRealDecimal]
        cases rest with
        | nil => exact .inr (.inl ⟨⟨b, rfl, h64.mp h2⟩, rfl⟩)
        | cons x rest =>
          rw [if_neg (by simp)]
          refine .inr (.inr ⟨nh, fun ⟨_, h, _⟩ => (by cases h), ?_⟩)
          dsimp only
          split
          all_goals exact ⟨_, rfl⟩
      · refine .inr (.inr ⟨nh, fun ⟨_, h, hlt⟩ => ?_, ?_⟩)
        · cases h; exact h2 (h64.mpr hlt)
        · rw [if_neg h2, decodeRealSpecial]
          by_cases h3 : (b :: rest).length = 1
          · rw [if_pos h3, at_cons_zero, Exec.ok_bind]
            repeat' split
            all_goals exact ⟨_, rfl⟩
          · rw [if_neg h3]; exact ⟨_, rfl⟩

/-- Not every accepted binary form hangs. -/
example : decodeReal (fun _ _ _ => 0) [0x80, 0, 0, 0x10] = .ok (some 0x4030000000000000) := by decide +kernel

/-! ## C68: decoding agrees with X.690 -/

/-- C68, full statement: contents octets that denote a finite value in the binary form decode to that value truncated to a
double. -/
def C68_statement : Prop := ∀ (dec : Bool → Nat → Int → UInt64) (c : Bytes) (b : UInt8) (rest : Bytes) (s : Bool) (m : Nat) (e : Int),
  c = b :: rest → 128 ≤ b.toNat → realContents c = some (.finite s m e) →
  ∃ d, decodeReal dec c = .ok (some d) ∧ Truncated s m e d

/-- C68 is false: `80 00 01`, the shortest encoding of 1.0, is rejected. -/
theorem C68_violated : ¬ C68_statement := by
  intro h
  obtain ⟨d, h, _⟩ := h (fun _ _ _ => 0) [0x80, 0, 1] 0x80 [0, 1] false 1 0 rfl (by decide) (by decide +kernel)
  rw [show decodeReal (fun _ _ _ => 0) [0x80, 0, 1] = .ok none by decide +kernel] at h
  cases h

/-- C68: a two octet exponent is misread without an error (2^200 · 2^52 becomes 2^52). -/
theorem C68_exponent_violated : ∃ c d, realContents c = some (.finite false (2 ^ 52) 148) ∧
    decodeReal (fun _ _ _ => 0) c = .ok (some d) ∧ doubleVal d = .finite false (2 ^ 52) 0 :=
  ⟨[0x81, 0, 0x94, 0x10, 0, 0, 0, 0, 0, 0], 0x4330000000000000, by decide +kernel, by decide +kernel, by decide +kernel⟩

/-- C68 (part): a binary form of at least four octets with a one octet exponent (or a two octet exponent in the long form),
a mantissa that is not zero, and contents below 128 MiB, on which the decoder ends, decodes to the X.690 value truncated
to a double. -/
theorem C68_decode_value_partial (dec : Bool → Nat → Int → UInt64) (b : UInt8) (rest ex n : Bytes) (s : Bool) (m : Nat) (e : Int)
    (hlen : (b :: rest).length < 2 ^ 27) (h4 : 4 ≤ (b :: rest).length) (hb : 128 ≤ b.toNat)
    (hp : realParts (b.toNat % 4) rest = some (ex, n))
    (hx : (b.toNat % 4 = 0 ∧ ex.length = 1) ∨ (b.toNat % 4 = 3 ∧ ex.length = 2 ∧ minimalInt ex))
    (hv : realContents (b :: rest) = some (.finite s m e)) (hm : m ≠ 0)
    (hend : ¬ RealHangs (b :: rest)) :
    ∃ d, decodeReal dec (b :: rest) = .ok (some d) ∧ Truncated s m e d := by
  have hcb := control_bits b
  simp only [List.length_cons] at hlen h4
  have hd : decodeReal dec (b :: rest) = decodeRealBinary (b :: rest) := by
    rw [decodeReal, if_neg (by simp), at_cons_zero, Exec.ok_bind, if_pos (hcb.2.2.2.2.2.1.mpr hb)]
  rw [hd]
  rw [realContents, if_pos hb, realBinary] at hv
  by_cases hbase : b.toNat / 16 % 4 = 3
  · simp only [if_pos hbase] at hv; cases hv
  simp only [if_neg hbase, hp, Option.bind_eq_bind, Option.bind_some, Option.some.injEq, RealVal.finite.injEq] at hv
  obtain ⟨hs, hmm, he⟩ := hv
  have hn : value256 n ≠ 0 := by intro h; rw [h] at hmm; simp at hmm; exact hm hmm.symm
  have hmin : minimalInt ex := by
    rcases hx with ⟨_, h⟩ | ⟨_, _, h⟩
    · match ex, h with
      | [a], _ => exact trivial
    · exact h
  have hexl : ex.length ≤ 4 := by omega
  rcases decodeRealBinary_eq b rest with ⟨hno, _⟩ | ⟨ex', n', g1, g2, g3, g4, g5, g6, g7, g8, g9⟩
  · exact absurd ⟨ex, n, by omega, hbase, hp, hmin, hn, hexl⟩ hno
  · rw [hp] at g3
    simp only [Option.some.injEq, Prod.mk.injEq] at g3
    obtain ⟨rfl, rfl⟩ := g3
    have hcode : codeExponent b rest = twosComplement ex := by
      unfold codeExponent
      unfold realParts at hp
      rcases hx with ⟨h0, h1⟩ | ⟨h0, h1, _⟩
      · rw [if_neg (by omega)]
        rw [h0, if_neg (by decide)] at hp
        split at hp
        · cases hp
        · simp only [Option.some.injEq, Prod.mk.injEq] at hp; rw [← hp.1]
      · rw [if_pos h0]
        rw [h0, if_pos rfl] at hp
        cases rest with
        | nil => cases hp
        | cons x rest =>
          simp only at hp
          split at hp
          · cases hp
          · rename_i hx
            simp only [Option.some.injEq, Prod.mk.injEq] at hp
            rw [← hp.1] at h1 ⊢
            simp only [List.length_take] at h1
            have : x.toNat = 2 := by omega
            rw [this]; rfl
    obtain ⟨z, f, tl, rfl, hf⟩ := mantissa_split hn
    have hl : tl.length < 2 ^ 27 := by
      simp only [List.length_append, List.length_replicate, List.length_cons] at g7; omega
    rw [g9]
    rcases decodeMantissa_eq (z := z) (tl := tl) (show b.toNat / 64 % 2 < 2 by omega) hf hl g8 with
      ⟨m1, m2, m3⟩ | ⟨m1, d, m2, m3⟩
    · exact absurd ⟨b, rest, ex, z, f, tl, rfl, hb, g1, g2, hp, g4, g6, hf, m1, m2⟩ hend
    · refine ⟨d, m2, ?_⟩
      rw [hs, hcode] at m3
      have hbs : baseScale (b.toNat / 16 % 4) = if b.toNat / 16 % 4 = 0 then 1 else if b.toNat / 16 % 4 = 1 then 3 else 4 := rfl
      rw [← hbs] at he
      unfold Truncated at m3 ⊢
      rw [he] at m3
      have hfs : ∀ k, floorScale (value256 (List.replicate z 0 ++ f :: tl)) (e + (b.toNat / 4 % 4 : Nat) - k) = floorScale m (e - k) := by
        intro k
        rw [← hmm, floorScale_mul]; congr 1; omega
      cases hdv : doubleVal d with
      | finite s' n' k' => rw [hdv] at m3; simp only at m3 ⊢; rw [hfs] at m3; exact m3
      | inf s' => rw [hdv] at m3; simp only at m3 ⊢; rw [hfs] at m3; exact m3
      | nan => rw [hdv] at m3; exact m3

/-- C68 met by the base 16, scaled form `A4 01 00 18`: 0x18 · 2^1 · 16^1 = 768. -/
example : realContents [0xA4, 1, 0, 0x18] = some (.finite false 48 4) ∧
    decodeReal (fun _ _ _ => 0) [0xA4, 1, 0, 0x18] = .ok (some 0x4088000000000000) ∧
    doubleVal 0x4088000000000000 = .finite false (2 ^ 52 + 2 ^ 51) (-43) := by decide +kernel

end FastBer.Props
