import Verif.Model.Real
import Verif.Spec.Real
import Verif.Proofs.Small
namespace FastBer
open Spec

/-! ## The bytes of a double -/

theorem be64_nat (x : Nat) (h : x < 2 ^ 64) : be64 (x : Int) =
    [lenByte x 56, lenByte x 48, lenByte x 40, lenByte x 32, lenByte x 24, lenByte x 16, lenByte x 8, lenByte x 0] := by
  have : ((x : Int) % 2 ^ 64).toNat = x := by omega
  simp only [be64, this]

theorem lenByte_toNat (x s : Nat) : (lenByte x s).toNat = x / 2 ^ s % 256 := by
  simp [lenByte, Nat.shiftRight_eq_div_pow]

theorem bytesOfDouble_eq (d : UInt64) : bytesOfDouble d =
    [lenByte d.toNat 56, lenByte d.toNat 48, lenByte d.toNat 40, lenByte d.toNat 32, lenByte d.toNat 24,
     lenByte d.toNat 16, lenByte d.toNat 8, lenByte d.toNat 0] := be64_nat _ d.toNat_lt

/-- Seven octets of a number below 2^56. -/
def be7 (n : Nat) : Bytes :=
  [UInt8.ofNat (n / 2 ^ 48), UInt8.ofNat (n / 2 ^ 40), UInt8.ofNat (n / 2 ^ 32), UInt8.ofNat (n / 2 ^ 24),
   UInt8.ofNat (n / 2 ^ 16), UInt8.ofNat (n / 2 ^ 8), UInt8.ofNat n]

theorem be7_length (n : Nat) : (be7 n).length = 7 := rfl

theorem value256_be7 (n : Nat) (h : n < 2 ^ 56) : value256 (be7 n) = n := by
  simp only [be7, value256, List.foldl_cons, List.foldl_nil, toNat_ofNat]
  omega

theorem byte_eq {n : Nat} {b : UInt8} (h : n % 256 = b.toNat) : UInt8.ofNat n = b := byte_ext (by simpa using h)

theorem sign_lt (d : UInt64) : signBit d < 2 := by
  have := d.toNat_lt
  simp only [signBit]; omega

theorem fraction_lt (d : UInt64) : fraction d < 2 ^ 52 := Nat.mod_lt _ (by decide)
theorem expField_lt (d : UInt64) : expField d < 2048 := Nat.mod_lt _ (by decide)

theorem double_split (d : UInt64) : d.toNat = signBit d * 2 ^ 63 + expField d * 2 ^ 52 + fraction d := by
  have := d.toNat_lt
  simp only [signBit, expField, fraction]; omega

/-- `buffer` after the exponent has been removed. -/
theorem buffer_eq (d : UInt64) : ((bytesOfDouble d ++ [0]).set 1 (UInt8.ofNat (((bytesOfDouble d ++ [0]).getD 1 0).toNat % 16)))
    = lenByte d.toNat 56 :: (be7 (fraction d) ++ [0]) := by
  rw [bytesOfDouble_eq]
  simp only [be7, fraction, List.cons_append, List.nil_append, List.set_cons_succ, List.set_cons_zero,
    List.getD_cons_succ, List.getD_cons_zero, lenByte_toNat, List.cons.injEq, and_true, true_and]
  refine ⟨?_, ?_, ?_, ?_, ?_, ?_, ?_⟩ <;> refine byte_ext ?_ <;> simp only [toNat_ofNat, lenByte_toNat] <;> omega

theorem encode_fields (d : UInt64) : ((bytesOfDouble d ++ [0]).getD 0 0).toNat / 128 = signBit d ∧
    ((bytesOfDouble d ++ [0]).getD 0 0).toNat % 128 * 16 + ((bytesOfDouble d ++ [0]).getD 1 0).toNat / 16 = expField d := by
  have := d.toNat_lt
  rw [bytesOfDouble_eq]
  simp only [List.cons_append, List.getD_cons_succ, List.getD_cons_zero, lenByte_toNat, signBit, expField]
  omega

theorem all_zero_be7 (n : Nat) (h : n < 2 ^ 52) : ((be7 n ++ [0]).all (· == 0) = true) ↔ n = 0 := by
  simp only [be7, List.cons_append, List.nil_append, List.all_cons, List.all_nil, Bool.and_true, Bool.and_eq_true,
    beq_iff_eq, ← UInt8.toNat_inj, toNat_ofNat]
  constructor
  · rintro ⟨h1, h2, h3, h4, h5, h6, h7, _⟩
    have e0 : (0 : UInt8).toNat = 0 := rfl
    omega
  · rintro rfl; simp

theorem shiftLeft_eq (b : UInt8) (n : Nat) :
    ((shiftLeft1 (b :: (be7 n ++ [0]))).drop 1).take 7 = be7 (2 * n) := by
  simp only [shiftLeft1, be7, List.foldl_cons, List.foldl_nil, List.cons_append, List.nil_append, List.set_cons_succ,
    List.set_cons_zero, List.getD_cons_succ, List.getD_cons_zero, List.drop_succ_cons, List.drop_zero, List.take_succ_cons,
    List.take_zero, List.cons.injEq, and_true]
  refine ⟨?_, ?_, ?_, ?_, ?_, ?_, ?_⟩ <;> refine byte_ext ?_ <;> simp only [toNat_ofNat] <;>
    (try simp only [show (0 : UInt8).toNat = 0 from rfl]) <;> omega

theorem hidden_eq (b : UInt8) (n : Nat) (h : n < 2 ^ 52) :
    (((b :: (be7 n ++ [0])).set 1 ((b :: (be7 n ++ [0])).getD 1 0 ||| 0x10)).drop 1).take 7 = be7 (2 ^ 52 + n) := by
  have hb : ∀ k : UInt8, k.toNat < 16 → (k ||| 0x10).toNat = k.toNat + 16 := by
    intro k; revert k; exact forall_byte (by decide +kernel)
  have hk : (UInt8.ofNat (n / 2 ^ 48)).toNat < 16 := by rw [toNat_ofNat]; omega
  simp only [be7, List.cons_append, List.nil_append, List.set_cons_succ,
    List.set_cons_zero, List.getD_cons_succ, List.getD_cons_zero, List.drop_succ_cons, List.drop_zero, List.take_succ_cons,
    List.take_zero, List.cons.injEq, and_true]
  refine ⟨byte_ext ?_, ?_, ?_, ?_, ?_, ?_, ?_⟩
  · rw [hb _ hk]; simp only [toNat_ofNat]; omega
  all_goals refine byte_ext ?_; simp only [toNat_ofNat]; omega

/-! ## Encoding -/

theorem put_ok {c : Bytes} {i : Nat} (h : i < c.length) (b : UInt8) : put c i b = .ok (c.set i b) := by
  rw [put, if_pos h]

theorem putAll_ok {out bs : Bytes} {i : Nat} (h : i + bs.length ≤ out.length) :
    putAll out i bs = .ok (out.take i ++ bs ++ out.drop (i + bs.length)) := by
  induction bs generalizing out i with
  | nil => simp [putAll]
  | cons b bs ih =>
    simp only [List.length_cons] at h
    rw [putAll, put_ok (by omega), Exec.ok_bind, ih (by simp; omega)]
    simp only [Exec.ok.injEq]
    rw [List.set_eq_take_append_cons_drop, if_pos (by omega)]
    have h1 : (out.take i).length = i := by simp; omega
    rw [List.take_append, List.drop_append]
    simp only [h1, List.length_cons]
    rw [List.take_of_length_le (by omega), show i + 1 - i = 1 by omega,
      List.drop_eq_nil_of_le (as := out.take i) (by omega)]
    rw [show i + 1 + bs.length - i = bs.length + 1 by omega]
    simp only [List.take_succ_cons, List.take_zero, List.drop_succ_cons, List.drop_drop, List.nil_append,
      List.append_assoc, List.cons_append]
    rw [show i + 1 + bs.length = i + (bs.length + 1) by omega]

/-- Contents octets of a finite non-zero double: control octet, exponent on one or two octets, seven mantissa octets. -/
def realBinaryContent (sign : Nat) (e : Int) (n : Nat) : Bytes :=
  if -128 ≤ e ∧ e ≤ 127 then
    UInt8.ofNat (0x80 + sign * 64) :: UInt8.ofNat (e % 256).toNat :: be7 n
  else
    UInt8.ofNat (0x81 + sign * 64) :: UInt8.ofNat (e / 256 % 256).toNat :: UInt8.ofNat (e % 256).toNat :: be7 n

/-- Contents octets of a double. -/
def realContent (d : UInt64) : Bytes :=
  if expField d = 2047 then
    (if fraction d = 0 then (if signBit d = 0 then [0x40] else [0x41]) else [0x42])
  else if expField d = 0 then
    (if fraction d = 0 then (if signBit d = 0 then [] else [0x43])
     else realBinaryContent (signBit d) (-1075) (2 * fraction d))
  else realBinaryContent (signBit d) ((expField d : Int) - 1075) (2 ^ 52 + fraction d)

theorem encodeRealBinary_ok (out : Bytes) (sign : Nat) (e : Int) (n : Nat)
    (h : (realBinaryContent sign e n).length ≤ out.length) :
    encodeRealBinary out sign e (be7 n) =
      .ok ((realBinaryContent sign e n).length, realBinaryContent sign e n ++ out.drop (realBinaryContent sign e n).length) := by
  have hb : (be7 n).length = 7 := rfl
  by_cases he : -128 ≤ e ∧ e ≤ 127
  · simp only [realBinaryContent, if_pos he, List.length_cons, be7_length] at h ⊢
    simp only [encodeRealBinary, if_pos he]
    rw [putAll_ok (by simp only [List.length_cons, List.length_nil]; omega), Exec.ok_bind,
      putAll_ok (by simp only [List.length_append, List.length_take, List.length_drop, List.length_cons, List.length_nil, hb]; omega),
      Exec.ok_bind]
    simp [be7_length, List.drop_drop]
  · simp only [realBinaryContent, if_neg he, List.length_cons, be7_length] at h ⊢
    simp only [encodeRealBinary, if_neg he]
    rw [putAll_ok (by simp only [List.length_cons, List.length_nil]; omega), Exec.ok_bind,
      putAll_ok (by simp only [List.length_append, List.length_take, List.length_drop, List.length_cons, List.length_nil, hb]; omega),
      Exec.ok_bind]
    simp [be7_length, List.drop_drop]

theorem put_zero {out : Bytes} (h : 1 ≤ out.length) (b : UInt8) : put out 0 b = .ok ([b] ++ out.drop 1) := by
  cases out with
  | nil => simp at h
  | cons a out => simp [put]

/-- `encode_real` writes the contents octets and nothing else. -/
theorem encodeReal_ok (out : Bytes) (d : UInt64) (h : (realContent d).length ≤ out.length) :
    encodeReal out d = .ok ((realContent d).length, realContent d ++ out.drop (realContent d).length) := by
  obtain ⟨h1, h2⟩ := encode_fields d
  have hf := fraction_lt d
  simp only [encodeReal, h1, h2, buffer_eq]
  rw [List.drop_succ_cons, List.drop_zero]
  simp only [all_zero_be7 _ hf]
  unfold realContent at h ⊢
  by_cases he : expField d = 2047
  · simp only [if_pos he] at h ⊢
    by_cases hz : fraction d = 0
    · simp only [if_pos hz] at h ⊢
      by_cases hs : signBit d = 0
      · simp only [if_pos hs] at h ⊢
        rw [put_zero (by simpa using h)]; rfl
      · simp only [if_neg hs] at h ⊢
        rw [put_zero (by simpa using h)]; rfl
    · simp only [if_neg hz] at h ⊢
      rw [put_zero (by simpa using h)]; rfl
  · simp only [if_neg he] at h ⊢
    by_cases h0 : expField d = 0
    · simp only [if_pos h0] at h ⊢
      by_cases hz : fraction d = 0
      · simp only [if_pos hz] at h ⊢
        by_cases hs : signBit d = 0
        · simp [if_pos hs]
        · simp only [if_neg hs] at h ⊢
          rw [put_zero (by simpa using h)]; rfl
      · simp only [if_neg hz] at h ⊢
        rw [shiftLeft_eq, h0]
        exact encodeRealBinary_ok _ _ _ _ h
    · simp only [if_neg h0] at h ⊢
      rw [hidden_eq _ _ hf]
      exact encodeRealBinary_ok _ _ _ _ h

theorem realContent_length (d : UInt64) : (realContent d).length ≤ 10 := by
  unfold realContent realBinaryContent
  repeat' split
  all_goals simp [be7_length]


/-! ## Mantissa octets -/

theorem eq_be7 {M : Bytes} (h : M.length = 7) : M = be7 (value256 M) := by
  match M, h with
  | [a, b, c, d, e, f, g], _ =>
    have := a.toNat_lt; have := b.toNat_lt; have := c.toNat_lt; have := d.toNat_lt
    have := e.toNat_lt; have := f.toNat_lt; have := g.toNat_lt
    simp only [be7, value256, List.foldl_cons, List.foldl_nil, List.cons.injEq, and_true]
    refine ⟨?_, ?_, ?_, ?_, ?_, ?_, ?_⟩ <;> refine (byte_eq ?_).symm <;> omega

theorem shiftRightBits_eq (n : Nat) (z : UInt8) (s : Nat) (hs : s ≤ 7) (h : n < 2 ^ 56) :
    shiftRightBits s (0 :: (be7 n ++ [z])) = 0 :: (be7 (n / 2 ^ s) ++ [z]) := by
  simp only [shiftRightBits, be7, List.foldl_cons, List.foldl_nil, List.cons_append, List.nil_append, List.set_cons_succ,
    List.set_cons_zero, List.getD_cons_succ, List.getD_cons_zero, List.cons.injEq, and_true, true_and,
    Nat.add_one_sub_one, toNat_ofNat]
  have hz : (0 : UInt8).toNat = 0 := rfl
  rw [hz]
  match s, hs with
  | 0, _ => refine ⟨?_, ?_, ?_, ?_, ?_, ?_, ?_⟩ <;> refine byte_ext ?_ <;> simp only [toNat_ofNat] <;> omega
  | 1, _ => refine ⟨?_, ?_, ?_, ?_, ?_, ?_, ?_⟩ <;> refine byte_ext ?_ <;> simp only [toNat_ofNat] <;> omega
  | 2, _ => refine ⟨?_, ?_, ?_, ?_, ?_, ?_, ?_⟩ <;> refine byte_ext ?_ <;> simp only [toNat_ofNat] <;> omega
  | 3, _ => refine ⟨?_, ?_, ?_, ?_, ?_, ?_, ?_⟩ <;> refine byte_ext ?_ <;> simp only [toNat_ofNat] <;> omega
  | 4, _ => refine ⟨?_, ?_, ?_, ?_, ?_, ?_, ?_⟩ <;> refine byte_ext ?_ <;> simp only [toNat_ofNat] <;> omega
  | 5, _ => refine ⟨?_, ?_, ?_, ?_, ?_, ?_, ?_⟩ <;> refine byte_ext ?_ <;> simp only [toNat_ofNat] <;> omega
  | 6, _ => refine ⟨?_, ?_, ?_, ?_, ?_, ?_, ?_⟩ <;> refine byte_ext ?_ <;> simp only [toNat_ofNat] <;> omega
  | 7, _ => refine ⟨?_, ?_, ?_, ?_, ?_, ?_, ?_⟩ <;> refine byte_ext ?_ <;> simp only [toNat_ofNat] <;> omega

theorem shiftRightBytes_eq (n : Nat) (z : UInt8) (k : Nat) (hk : k ≤ 6) (h : n < 2 ^ 56) :
    shiftRightBytes k (0 :: (be7 n ++ [z])) = 0 :: (be7 (n / 2 ^ (8 * k)) ++ [z]) := by
  have hz : (0 : UInt8) = UInt8.ofNat 0 := rfl
  match k, hk with
  | 0, _ => simp [shiftRightBytes, be7]
  | 1, _ => simp [shiftRightBytes, be7]; and_intros <;> refine byte_ext ?_ <;> (try simp only [hz]) <;> simp only [toNat_ofNat] <;> omega
  | 2, _ => simp [shiftRightBytes, be7]; and_intros <;> refine byte_ext ?_ <;> (try simp only [hz]) <;> simp only [toNat_ofNat] <;> omega
  | 3, _ => simp [shiftRightBytes, be7]; and_intros <;> refine byte_ext ?_ <;> (try simp only [hz]) <;> simp only [toNat_ofNat] <;> omega
  | 4, _ => simp [shiftRightBytes, be7]; and_intros <;> refine byte_ext ?_ <;> (try simp only [hz]) <;> simp only [toNat_ofNat] <;> omega
  | 5, _ => simp [shiftRightBytes, be7]; and_intros <;> refine byte_ext ?_ <;> (try simp only [hz]) <;> simp only [toNat_ofNat] <;> omega
  | 6, _ => simp [shiftRightBytes, be7]; and_intros <;> refine byte_ext ?_ <;> (try simp only [hz]) <;> simp only [toNat_ofNat] <;> omega

/-! ## Assembly -/

theorem assemble_bits (e sign n : Nat) (z : UInt8) (hs : sign < 2) (he : e < 2048) (hn : n < 2 ^ 56) :
    (doubleOfBytes ((((0 :: (be7 n ++ [z])).set 0 (UInt8.ofNat (sign * 128 + e / 16))).set 1
      (UInt8.ofNat (e * 16 + ((0 :: (be7 n ++ [z])).getD 1 0).toNat % 16))).take 8)).toNat =
      sign * 2 ^ 63 + e * 2 ^ 52 + n % 2 ^ 52 := by
  simp only [doubleOfBytes, be7, List.cons_append, List.nil_append, List.set_cons_succ,
    List.set_cons_zero, List.getD_cons_succ, List.getD_cons_zero, List.take_succ_cons, List.take_zero,
    List.foldl_cons, List.foldl_nil, UInt64.toNat_ofNat', toNat_ofNat]
  omega

theorem bits_fields {d : UInt64} {s e n : Nat} (h : d.toNat = s * 2 ^ 63 + e * 2 ^ 52 + n) (he : e < 2048)
    (hn : n < 2 ^ 52) : signBit d = s ∧ expField d = e ∧ fraction d = n := by
  simp only [signBit, expField, fraction, h]
  omega

theorem assemble_normal {e : Int} {sign n : Nat} (z : UInt8) (hs : sign < 2) (he : 0 < e) (he' : e < 0x7FF)
    (hn : n < 2 ^ 56) : (assembleDouble e sign (0 :: (be7 n ++ [z]))).toNat =
      sign * 2 ^ 63 + e.toNat * 2 ^ 52 + n % 2 ^ 52 := by
  rw [assembleDouble, if_neg (by omega)]
  rw [if_neg (by omega)]
  exact assemble_bits _ _ _ _ hs (by omega) hn

theorem assemble_denormal {e : Int} {sign n : Nat} (z : UInt8) (hs : sign < 2) (he : -55 < e) (he' : e ≤ 0)
    (hn : n < 2 ^ 56) : (assembleDouble e sign (0 :: (be7 n ++ [z]))).toNat =
      sign * 2 ^ 63 + (n / 2 ^ (1 - e).toNat) % 2 ^ 52 := by
  rw [assembleDouble, if_neg (by omega), if_pos he']
  have h1 : (-(e - 1)).toNat = (1 - e).toNat := by omega
  have h2 : n / 2 ^ (8 * ((1 - e).toNat / 8)) < 2 ^ 56 := Nat.lt_of_le_of_lt (Nat.div_le_self _ _) hn
  dsimp only
  rw [h1, shiftRightBytes_eq _ _ _ (by omega) hn, shiftRightBits_eq _ _ _ (by omega) h2]
  have h3 : n / 2 ^ (8 * ((1 - e).toNat / 8)) / 2 ^ ((1 - e).toNat % 8) = n / 2 ^ (1 - e).toNat := by
    rw [Nat.div_div_eq_div_mul, ← Nat.pow_add]
    congr 2; omega
  rw [h3]
  have := assemble_bits 0 sign (n / 2 ^ (1 - e).toNat) z hs (by omega) (Nat.lt_of_le_of_lt (Nat.div_le_self _ _) hn)
  simp only [Nat.zero_mul, Nat.add_zero] at this
  exact this


/-! ## Scaling by powers of two -/

theorem floorScale_nonneg (m a : Nat) : floorScale m a = m * 2 ^ a := by
  simp [floorScale]

theorem floorScale_neg (m a : Nat) : floorScale m (-(a : Int)) = m / 2 ^ a := by
  by_cases h : a = 0
  · subst h; simp [floorScale]
  · simp [floorScale, show (-(a : Int)).toNat = 0 by omega]

theorem mul_pow_div_pow (m a b : Nat) : m * 2 ^ a / 2 ^ b = floorScale m ((a : Int) - b) := by
  by_cases h : b ≤ a
  · obtain ⟨c, rfl⟩ := Nat.exists_eq_add_of_le h
    rw [show ((b + c : Nat) : Int) - b = (c : Nat) by omega, floorScale_nonneg, Nat.pow_add, Nat.mul_comm (2 ^ b),
      ← Nat.mul_assoc, Nat.mul_div_cancel _ (Nat.two_pow_pos b)]
  · obtain ⟨c, rfl⟩ := Nat.exists_eq_add_of_le (Nat.le_of_not_le h)
    rw [show (a : Int) - ((a + c : Nat) : Int) = -(c : Int) by omega, floorScale_neg, Nat.pow_add, Nat.mul_comm m,
      Nat.mul_div_mul_left _ _ (Nat.two_pow_pos a)]

theorem floorScale_div (m : Nat) (k : Int) (s : Nat) : floorScale m k / 2 ^ s = floorScale m (k - s) := by
  rw [floorScale, Nat.div_div_eq_div_mul, ← Nat.pow_add, mul_pow_div_pow]
  congr 1; omega

theorem floorScale_mul (m f : Nat) (k : Int) : floorScale (m * 2 ^ f) k = floorScale m (k + f) := by
  rw [floorScale, Nat.mul_assoc, ← Nat.pow_add, mul_pow_div_pow]
  congr 1; omega

theorem floorScale_mono (m : Nat) {a b : Int} (h : a ≤ b) : floorScale m a ≤ floorScale m b := by
  have := floorScale_div m b (b - a).toNat
  rw [show b - ((b - a).toNat : Int) = a by omega] at this
  rw [← this]; exact Nat.div_le_self _ _

/-! ## Assembly computes the truncated value -/

theorem doubleVal_zero (sign : Nat) : doubleVal (if sign = 0 then 0 else minusZero) = .finite (!(sign == 0)) 0 (-1074) := by
  by_cases h : sign = 0
  · rw [if_pos h]; subst h; decide
  · rw [if_neg h]; simp only [beq_eq_false_iff_ne.mpr h]; decide

theorem doubleVal_inf (sign : Nat) : doubleVal (if sign = 0 then plusInf else minusInf) = .inf (!(sign == 0)) := by
  by_cases h : sign = 0
  · rw [if_pos h]; subst h; decide
  · rw [if_neg h]; simp only [beq_eq_false_iff_ne.mpr h]; decide

theorem sign_flag {s : Nat} (h : s < 2) : (s == 1) = !(s == 0) := by
  match s, h with
  | 0, _ => rfl
  | 1, _ => rfl

theorem assemble_trunc {N n sign : Nat} {k e E : Int} (z : UInt8) (hs : sign < 2) (hn : n = floorScale N k) (he : e = k + E - 1075)
    (h1 : E < 0x7FF → n < 2 ^ 53) (h2 : 0 < E → 2 ^ 52 ≤ n) (hn56 : n < 2 ^ 56) :
    Truncated (sign == 1) N e (assembleDouble E sign (0 :: (be7 n ++ [z]))) := by
  rw [sign_flag hs]
  by_cases hE : E ≥ 0x7FF
  · rw [assembleDouble, if_pos (.inl hE), overflowed, if_pos (by omega)]
    simp only [Truncated, doubleVal_inf, true_and]
    have h3 := floorScale_div N k 52
    rw [← hn] at h3
    have h4 := floorScale_mono N (show k - (52 : Nat) ≤ e - 1024 by omega)
    have h5 : 1 ≤ n / 2 ^ 52 := by have := h2 (by omega); omega
    omega
  · have h1 := h1 (by omega)
    by_cases hE2 : 0 < E
    · have h2 := h2 hE2
      have hb := assemble_normal z hs hE2 (by omega) hn56
      obtain ⟨b1, b2, b3⟩ := bits_fields hb (by omega) (Nat.mod_lt _ (by decide))
      simp only [Truncated, doubleVal, b1, b2, b3]
      rw [if_neg (by omega), if_neg (by omega)]
      have hk : e - ((E.toNat : Int) - 1075) = k := by omega
      simp only [hk, ← hn, sign_flag hs, true_and]
      omega
    · have hk : floorScale N (e - -1074) = n / 2 ^ (1 - E).toNat := by
        rw [hn, floorScale_div]; congr 1; omega
      by_cases hE3 : -55 < E
      · have hb := assemble_denormal z hs hE3 (by omega) hn56
        have hlt : n / 2 ^ (1 - E).toNat < 2 ^ 52 := by
          rw [Nat.div_lt_iff_lt_mul (Nat.two_pow_pos _)]
          have : 2 ^ 1 ≤ 2 ^ (1 - E).toNat := Nat.pow_le_pow_right (by decide) (by omega)
          have := Nat.mul_le_mul_left (2 ^ 52) this
          omega
        rw [Nat.mod_eq_of_lt hlt] at hb
        obtain ⟨b1, b2, b3⟩ := bits_fields (s := sign) (e := 0) (hb.trans (by rw [Nat.zero_mul, Nat.add_zero]))
          (by decide) hlt
        simp only [Truncated, doubleVal, b1, b2, b3]
        rw [if_neg (by decide), if_pos trivial]
        simp only [sign_flag hs, hk, true_and, true_or]
      · rw [assembleDouble, if_pos (by omega), overflowed, if_neg (by omega)]
        simp only [Truncated, doubleVal_zero, true_and, true_or, and_true]
        rw [hk]
        have : 2 ^ 53 ≤ 2 ^ (1 - E).toNat := Nat.pow_le_pow_right (by decide) (by omega)
        rw [Nat.div_eq_of_lt (by omega)]

/-! ## The mantissa -/

theorem value256_app (a b : Bytes) : value256 (a ++ b) = value256 a * 256 ^ b.length + value256 b := by
  rw [value256, List.foldl_append, value256_foldl]; rfl

theorem value256_zeros (k : Nat) : value256 (List.replicate k 0) = 0 := by
  induction k with
  | zero => rfl
  | succ k ih => rw [List.replicate_succ, value256_cons, ih]; simp

theorem skip_value (m : Bytes) : value256 (skipLeadingZeros m) = value256 m := by
  induction m with
  | nil => rfl
  | cons a m ih =>
    cases m with
    | nil => rfl
    | cons b rest =>
      rw [skipLeadingZeros]
      by_cases h : a = 0
      · subst h
        rw [if_pos rfl, ih, value256_cons 0]
        simp
      · rw [if_neg h]

theorem skip_length (m : Bytes) : (skipLeadingZeros m).length ≤ m.length := by
  induction m with
  | nil => exact Nat.le_refl _
  | cons a m ih =>
    cases m with
    | nil => exact Nat.le_refl _
    | cons b rest =>
      rw [skipLeadingZeros]
      by_cases h : a = 0
      · rw [if_pos h]; exact Nat.le_trans ih (Nat.le_succ _)
      · rw [if_neg h]; exact Nat.le_refl _

theorem skip_eq (z : Nat) (b : UInt8) (tl : Bytes) (hb : b ≠ 0) :
    skipLeadingZeros (List.replicate z 0 ++ b :: tl) = b :: tl := by
  induction z with
  | zero =>
    cases tl with
    | nil => rfl
    | cons c tl => rw [List.replicate_zero, List.nil_append, skipLeadingZeros, if_neg hb]
  | succ z ih =>
    rw [List.replicate_succ, List.cons_append]
    cases h : List.replicate z 0 ++ b :: tl with
    | nil => simp at h
    | cons x xs => rw [skipLeadingZeros, if_pos rfl, ← h, ih]

/-- A mantissa that is not zero: zero octets, then the leading octet and the rest. -/
theorem mantissa_split {m : Bytes} (h : value256 m ≠ 0) : ∃ z b tl, m = List.replicate z 0 ++ b :: tl ∧ b ≠ 0 := by
  induction m with
  | nil => exact absurd rfl h
  | cons a m ih =>
    by_cases ha : a = 0
    · subst ha
      rw [value256_cons] at h
      obtain ⟨z, b, tl, rfl, hb⟩ := ih (by simpa using h)
      exact ⟨z + 1, b, tl, rfl, hb⟩
    · exact ⟨0, a, m, rfl, ha⟩

/-- The first seven octets of the (padded) mantissa. -/
theorem padded_eq (m : Bytes) : ∃ x : UInt8, m.take 8 ++ List.replicate (8 - m.length) 0 =
    be7 (floorScale (value256 m) (8 * (7 - (m.length : Int)))) ++ [x] ∧
    floorScale (value256 m) (8 * (7 - (m.length : Int))) < 2 ^ 56 := by
  have hl : (m.take 8 ++ List.replicate (8 - m.length) 0).length = 8 := by simp; omega
  generalize hP : m.take 8 ++ List.replicate (8 - m.length) 0 = P at hl
  have hd : ∃ x, P.drop 7 = [x] := by
    match h : P.drop 7, (by simp [hl] : (P.drop 7).length = 1) with
    | [x], _ => exact ⟨x, rfl⟩
  obtain ⟨x, hx⟩ := hd
  have ht : (P.take 7).length = 7 := by simp [hl]
  have hv : value256 (P.take 7) = floorScale (value256 m) (8 * (7 - (m.length : Int))) := by
    by_cases h7 : 7 ≤ m.length
    · have : P.take 7 = m.take 7 := by
        rw [← hP, List.take_append_of_le_length (by simp; omega), List.take_take]; rfl
      have h2 : value256 m = value256 (m.take 7) * 256 ^ (m.length - 7) + value256 (m.drop 7) := by
        conv => lhs; rw [← List.take_append_drop 7 m]
        rw [value256_app, List.length_drop]
      have h3 := value256_lt (m.drop 7)
      rw [List.length_drop] at h3
      rw [this, show (8 * (7 - (m.length : Int))) = -((8 * (m.length - 7) : Nat) : Int) by omega, floorScale_neg,
        Nat.pow_mul, show 2 ^ 8 = 256 from rfl, h2, Nat.add_comm, Nat.add_mul_div_right _ _ (Nat.pow_pos (by decide)),
        Nat.div_eq_of_lt h3, Nat.zero_add]
    · have : P.take 7 = m ++ List.replicate (7 - m.length) 0 := by
        rw [← hP, List.take_of_length_le (by omega : m.length ≤ 8), List.take_append, List.take_of_length_le (by omega),
          List.take_replicate, show min (7 - m.length) (8 - m.length) = 7 - m.length by omega]
      rw [this, value256_app, value256_zeros, List.length_replicate,
        show (8 * (7 - (m.length : Int))) = ((8 * (7 - m.length) : Nat) : Int) by omega, floorScale_nonneg,
        Nat.pow_mul, show 2 ^ 8 = 256 from rfl, Nat.add_zero]
  refine ⟨x, ?_, ?_⟩
  · rw [← hv, ← eq_be7 ht, ← hx, List.take_append_drop]
  · rw [← hv]
    have := value256_lt (P.take 7)
    rw [ht] at this
    simpa using this

theorem rightShift_eq (e : Int) (first n : Nat) (hf : first = n / 2 ^ 48) (h32 : 32 ≤ first) (hn : n < 2 ^ 56) (he : e < 0x7FF) :
    ∃ s, rightShiftAmount e 0 first = s ∧ s ≤ 3 ∧ e + s ≤ 0x7FF ∧ 2 ^ 52 ≤ n / 2 ^ s ∧
      (e + s < 0x7FF → n / 2 ^ s < 2 ^ 53) := by
  rw [rightShiftAmount, dif_pos ⟨h32, by omega⟩, rightShiftAmount]
  by_cases h1 : 32 ≤ first / 2 ∧ e < 0x7FF - ((0 + 1 : Nat) : Int)
  · rw [dif_pos h1, rightShiftAmount]
    by_cases h2 : 32 ≤ first / 2 / 2 ∧ e < 0x7FF - ((0 + 1 + 1 : Nat) : Int)
    · rw [dif_pos h2, rightShiftAmount]
      by_cases h3 : 32 ≤ first / 2 / 2 / 2 ∧ e < 0x7FF - ((0 + 1 + 1 + 1 : Nat) : Int)
      · omega
      · rw [dif_neg h3]
        refine ⟨3, rfl, ?_, ?_, ?_, ?_⟩ <;> omega
    · rw [dif_neg h2]
      refine ⟨2, rfl, ?_, ?_, ?_, ?_⟩ <;> omega
  · rw [dif_neg h1]
    refine ⟨1, rfl, ?_, ?_, ?_, ?_⟩ <;> omega

/-- Decoding the mantissa: with leading octet `b`, the loop never ends if `b < 16` and the biased exponent is positive;
otherwise the result is the value truncated to a double. -/
theorem decodeMantissa_eq {e : Int} {sign z : Nat} {b : UInt8} {tl : Bytes} (hs : sign < 2) (hb : b ≠ 0)
    (hl : tl.length < 2 ^ 27) (he : -0xFFFFFF ≤ e ∧ e ≤ 0xFFFFFF) :
    (b.toNat < 16 ∧ 0 < e + 8 * ((tl.length : Int) - 6) + 1075 ∧
      decodeMantissa e sign (List.replicate z 0 ++ b :: tl) = .loop) ∨
    (¬ (b.toNat < 16 ∧ 0 < e + 8 * ((tl.length : Int) - 6) + 1075) ∧
      ∃ d, decodeMantissa e sign (List.replicate z 0 ++ b :: tl) = .ok (some d) ∧
        Truncated (sign == 1) (value256 (List.replicate z 0 ++ b :: tl)) e d) := by
  have hval := skip_value (List.replicate z 0 ++ b :: tl)
  have hsk := skip_eq z b tl hb
  rw [hsk] at hval
  rw [← hval]
  obtain ⟨x, hP, hn⟩ := padded_eq (b :: tl)
  have hhead : (b :: tl).take 8 ++ List.replicate (8 - (b :: tl).length) 0 =
      b :: (tl.take 7 ++ List.replicate (8 - (b :: tl).length) 0) := rfl
  unfold decodeMantissa
  simp only [hsk]
  rw [hP]
  generalize hN : floorScale (value256 (b :: tl)) (8 * (7 - ((b :: tl).length : Int))) = n at *
  have hlen : ((b :: tl).length : Int) = tl.length + 1 := by simp
  have hbm : (e + 8 * (((b :: tl).length : Int) - 7) + 1075).bmod (2 ^ 32) = e + 8 * ((tl.length : Int) - 6) + 1075 := by
    rw [hlen]
    rw [Int.bmod_eq_of_le (by omega) (by omega)]; omega
  rw [hbm]
  have hfirst : ((0 :: (be7 n ++ [x])).getD 1 0).toNat = n / 2 ^ 48 := by
    simp only [be7, List.cons_append, List.getD_cons_succ, List.getD_cons_zero, toNat_ofNat]; omega
  have hbn : b.toNat = n / 2 ^ 48 := by
    have := congrArg (fun l => (List.getD l 0 (0 : UInt8)).toNat) (hhead.symm.trans hP)
    simp only [be7, List.cons_append, List.getD_cons_zero, toNat_ofNat] at this
    omega
  rw [hfirst, ← hbn]
  generalize hE : e + 8 * ((tl.length : Int) - 6) + 1075 = E at *
  by_cases hA : 32 ≤ b.toNat ∧ E < 0x7FF
  · refine .inr ⟨by omega, ?_⟩
    rw [if_pos hA]
    obtain ⟨s, h1, h2, h3, h4, h5⟩ := rightShift_eq E b.toNat n hbn hA.1 hn hA.2
    refine ⟨_, rfl, ?_⟩
    rw [h1, shiftRightBits_eq _ _ _ (by omega) hn]
    refine assemble_trunc (k := 8 * (7 - ((b :: tl).length : Int)) - s) x hs ?_ ?_ h5 (fun _ => h4)
      (Nat.lt_of_le_of_lt (Nat.div_le_self _ _) hn)
    · rw [← hN, floorScale_div]
    · rw [hlen]; omega
  · rw [if_neg hA]
    by_cases hL : b.toNat < 16 ∧ E > 0
    · rw [if_pos hL]; exact .inl ⟨hL.1, hL.2, rfl⟩
    · rw [if_neg hL]
      refine .inr ⟨hL, _, rfl, ?_⟩
      refine assemble_trunc (k := 8 * (7 - ((b :: tl).length : Int))) x hs hN.symm ?_ (fun h => ?_) (fun h => ?_) hn
      · rw [hlen]; omega
      · omega
      · omega


/-! ## The first octet and the exponent -/

theorem control_bits (b : UInt8) : (b &&& 0x03).toNat = b.toNat % 4 ∧ (b &&& 0x40).toNat / 64 = b.toNat / 64 % 2 ∧
    (b &&& 0x30).toNat / 16 = b.toNat / 16 % 4 ∧ (b &&& 0x0C).toNat / 4 = b.toNat / 4 % 4 ∧
    ((b &&& 0x30) ≠ 0x30 ↔ b.toNat / 16 % 4 ≠ 3) ∧ ((b &&& 0x80) ≠ 0 ↔ 128 ≤ b.toNat) ∧
    ((b &&& 0xC0) = 0 ↔ b.toNat < 64) := by
  revert b; exact forall_byte (by decide +kernel)

theorem at_cons_zero (b : UInt8) (l : Bytes) : at' (b :: l) 0 = .ok b := rfl
theorem at_cons_succ (b : UInt8) (l : Bytes) (i : Nat) : at' (b :: l) (i + 1) = at' l i := by simp [at']

/-- Exponent octets and mantissa octets as the decoder sees them: same as X.690. -/
theorem exponentPos_eq (b : UInt8) (rest : Bytes) (h : 1 ≤ rest.length) :
    ∃ len off, realExponentPos (b :: rest) = .ok (len, off) ∧ (off = 1 ∨ off = 2) ∧ (off = 2 ↔ b.toNat % 4 = 3) ∧
      (off = 1 → len = b.toNat % 4 + 1) ∧
      ((len = 0 ∨ len + off ≥ (b :: rest).length + 1) → realParts (b.toNat % 4) rest = none) ∧
      (¬ (len = 0 ∨ len + off ≥ (b :: rest).length + 1) →
        realParts (b.toNat % 4) rest = some (((b :: rest).drop off).take len, (b :: rest).drop (len + off))) := by
  have hc := control_bits b
  by_cases h3 : b.toNat % 4 = 3
  · cases rest with
    | nil => simp at h
    | cons x rest =>
      refine ⟨x.toNat, 2, ?_, .inr rfl, by simp [h3], by simp, ?_, ?_⟩
      · simp only [realExponentPos, at_cons_zero, Exec.ok_bind, hc.1, h3]
        rw [if_pos trivial, at_cons_succ, at_cons_zero, Exec.ok_bind]
      · intro hh
        simp only [List.length_cons] at hh
        simp only [realParts, h3, if_true]
        rw [if_pos (by omega)]
      · intro hh
        simp only [List.length_cons] at hh
        simp only [realParts, h3, if_true]
        rw [if_neg (by omega)]
        rfl
  · refine ⟨b.toNat % 4 + 1, 1, ?_, .inl rfl, by omega, fun _ => rfl, ?_, ?_⟩
    · simp only [realExponentPos, at_cons_zero, Exec.ok_bind, hc.1]
      rw [if_neg (by omega)]
    · intro hh
      simp only [List.length_cons] at hh
      simp only [realParts, if_neg h3]
      rw [if_pos (by omega)]
    · intro hh
      simp only [List.length_cons] at hh
      simp only [realParts, if_neg h3]
      rw [if_neg (by omega)]
      simp

theorem any_ne_zero (m : Bytes) : (m.any (· != 0) = true) ↔ value256 m ≠ 0 := by
  induction m with
  | nil => simp [value256]
  | cons a m ih =>
    rw [List.any_cons, Bool.or_eq_true, ih, value256_cons]
    by_cases ha : a = 0
    · subst ha; simp
    · have h1 : 0 < a.toNat := by
        rcases Nat.eq_zero_or_pos a.toNat with h | h
        · exact absurd (byte_ext (by simpa using h)) ha
        · exact h
      have h2 : 0 < 256 ^ m.length := Nat.pow_pos (by decide)
      have h3 := Nat.mul_pos h1 h2
      constructor
      · intro _; omega
      · intro _; left; simpa using ha

theorem nine_bits (x y : UInt8) (l : Bytes) : ((x = 0xFF ∧ (y &&& 0x80) ≠ 0) ∨ (x = 0x00 ∧ (y &&& 0x80) = 0)) ↔
    ¬ minimalInt (x :: y :: l) := by
  have hc := (control_bits y).2.2.2.2.2.1
  have h1 : x = 0xFF ↔ x.toNat = 255 := by rw [← UInt8.toNat_inj]; rfl
  have h2 : x = 0x00 ↔ x.toNat = 0 := by rw [← UInt8.toNat_inj]; rfl
  have h3 : (y &&& 0x80) = 0 ↔ ¬ 128 ≤ y.toNat := by rw [← hc]; simp
  rw [hc, h3, h1, h2]
  simp only [minimalInt]
  omega

/-- `check_real_binary`: at least four octets, a base, exponent octets of which the first nine bits differ, a mantissa that
is not zero. -/
theorem check_eq (b : UInt8) (rest : Bytes) :
    ∃ r, checkRealBinary (b :: rest) = .ok r ∧ (r = true ↔ 3 ≤ rest.length ∧ b.toNat / 16 % 4 ≠ 3 ∧
      ∃ ex n, realParts (b.toNat % 4) rest = some (ex, n) ∧ minimalInt ex ∧ value256 n ≠ 0) := by
  have hc := control_bits b
  unfold checkRealBinary
  by_cases hl : (b :: rest).length > 3
  · rw [if_pos hl, at_cons_zero, Exec.ok_bind]
    simp only [List.length_cons] at hl
    by_cases hb : (b &&& 0x30) ≠ 0x30
    · rw [if_pos hb]
      obtain ⟨len, off, h1, h2, h3, h4, h5, h6⟩ := exponentPos_eq b rest (by omega)
      rw [h1, Exec.ok_bind]
      dsimp only
      by_cases hbad : len = 0 ∨ len + off ≥ (b :: rest).length
      · rw [if_pos hbad]
        refine ⟨false, rfl, by simp, ?_⟩
        rintro ⟨_, _, ex, n, hp, _, hn⟩
        by_cases hbad2 : len = 0 ∨ len + off ≥ (b :: rest).length + 1
        · rw [h5 hbad2] at hp; cases hp
        · rw [h6 hbad2] at hp
          simp only [Option.some.injEq, Prod.mk.injEq] at hp
          rw [← hp.2, List.drop_eq_nil_of_le (by omega)] at hn
          exact absurd rfl hn
      · rw [if_neg hbad]
        have hp := h6 (by omega)
        rw [hp]
        have hmin : ∃ tl, (if len > 1 then do
            let first ← at' (b :: rest) off
            let second ← at' (b :: rest) (off + 1)
            .ok (decide ((first = 0xFF ∧ (second &&& 0x80) ≠ 0) ∨ (first = 0x00 ∧ (second &&& 0x80) = 0)))
          else .ok false : Exec Bool) = .ok tl ∧ (tl = true ↔ ¬ minimalInt (((b :: rest).drop off).take len)) := by
          have hlen : off + len < (b :: rest).length := by omega
          by_cases h1 : len > 1
          · rw [if_pos h1]
            generalize hq : b :: rest = c at *
            obtain ⟨l', rfl⟩ : ∃ l', len = l' + 2 := ⟨len - 2, by omega⟩
            have hd1 : c.drop off = c[off]'(by omega) :: c[off + 1]'(by omega) :: c.drop (off + 1 + 1) := by
              rw [List.drop_eq_getElem_cons (by omega), List.drop_eq_getElem_cons (i := off + 1) (by omega)]
            have ha : at' c off = .ok (c[off]'(by omega)) := by simp [at', show off < c.length by omega]
            have hb' : at' c (off + 1) = .ok (c[off + 1]'(by omega)) := by simp [at', show off + 1 < c.length by omega]
            refine ⟨_, by rw [ha, Exec.ok_bind, hb', Exec.ok_bind], ?_⟩
            rw [decide_eq_true_iff, hd1, List.take_succ_cons, List.take_succ_cons]
            exact nine_bits _ _ _
          · rw [if_neg h1]
            refine ⟨false, rfl, ?_⟩
            obtain rfl : len = 1 := by omega
            rw [List.drop_eq_getElem_cons (by omega), List.take_succ_cons, List.take_zero]
            simp [minimalInt]
        obtain ⟨tl, ht1, ht2⟩ := hmin
        rw [ht1, Exec.ok_bind]
        have hlr : 3 ≤ rest.length := by omega
        cases tl with
        | true =>
          refine ⟨false, rfl, by simp, ?_⟩
          rintro ⟨_, _, ex, n, hp', hm, _⟩
          simp only [Option.some.injEq, Prod.mk.injEq] at hp'
          rw [← hp'.1] at hm
          exact absurd hm (ht2.mp rfl)
        | false =>
          refine ⟨_, rfl, ?_⟩
          rw [any_ne_zero]
          constructor
          · intro hv
            refine ⟨hlr, hc.2.2.2.2.1.mp hb, _, _, rfl, ?_, hv⟩
            by_cases hm : minimalInt (((b :: rest).drop off).take len)
            · exact hm
            · exact nomatch ht2.mpr hm
          · rintro ⟨_, _, ex, n, hp', _, hn⟩
            simp only [Option.some.injEq, Prod.mk.injEq] at hp'
            rw [hp'.2]; exact hn
    · rw [if_neg hb]
      refine ⟨false, rfl, by simp, ?_⟩
      rintro ⟨_, hb', _⟩
      exact absurd (hc.2.2.2.2.1.mpr hb') hb
  · rw [if_neg hl]
    refine ⟨false, rfl, by simp, ?_⟩
    rintro ⟨h, _⟩
    simp only [List.length_cons] at hl
    omega

/-- The loop reading the exponent: as many octets as the *offset* of the exponent. -/
theorem readExponent_eq (c : Bytes) (off : Nat) (ho : off = 1 ∨ off = 2) (hl : off + off ≤ c.length) :
    ∃ e0, at' c off = .ok e0 ∧ readExponent c (if (e0 &&& 0x80) ≠ 0 then -1 else 0) off off =
      .ok (twosComplement ((c.drop off).take off)) := by
  have ha : ∀ i (h : i < c.length), at' c i = .ok c[i] := fun i h => by simp [at', h]
  refine ⟨c[off]'(by omega), ha off (by omega), ?_⟩
  have hc := (control_bits (c[off]'(by omega))).2.2.2.2.2.1
  rcases ho with rfl | rfl
  · rw [readExponent, ha 1 (by omega), Exec.ok_bind, readExponent, List.drop_eq_getElem_cons (by omega), List.take_succ_cons,
      List.take_zero]
    have hlt := (c[1]'(by omega)).toNat_lt
    by_cases h : 128 ≤ (c[1]'(by omega)).toNat
    · rw [if_pos (hc.mpr h)]
      simp only [twosComplement, if_pos h, value256_cons, value256_nil, List.length_nil, List.length_cons, Exec.ok.injEq]; omega
    · rw [if_neg (fun hh => h (hc.mp hh))]
      simp only [twosComplement, if_neg h, value256_cons, value256_nil, List.length_nil, Exec.ok.injEq]; omega
  · rw [readExponent, ha 2 (by omega), Exec.ok_bind, readExponent, ha 3 (by omega), Exec.ok_bind, readExponent,
      List.drop_eq_getElem_cons (by omega), List.drop_eq_getElem_cons (i := 3) (by omega), List.take_succ_cons,
      List.take_succ_cons, List.take_zero]
    by_cases h : 128 ≤ (c[2]'(by omega)).toNat
    · rw [if_pos (hc.mpr h)]
      simp only [twosComplement, if_pos h, value256_cons, value256_nil, List.length_nil, List.length_cons, Exec.ok.injEq]; omega
    · rw [if_neg (fun hh => h (hc.mp hh))]
      simp only [twosComplement, if_neg h, value256_cons, value256_nil, List.length_nil, List.length_cons, Exec.ok.injEq]; omega

theorem twosComplement_small (bs : Bytes) (h : bs.length ≤ 2) : -32768 ≤ twosComplement bs ∧ twosComplement bs ≤ 32767 := by
  have hlt := value256_lt bs
  match bs, h with
  | [], _ => simp [twosComplement]
  | [a], _ =>
    have := a.toNat_lt
    simp only [twosComplement, value256_cons, value256_nil, List.length_nil, List.length_cons]
    split <;> omega
  | [a, b], _ =>
    have := a.toNat_lt
    have := b.toNat_lt
    simp only [twosComplement, value256_cons, value256_nil, List.length_nil, List.length_cons]
    split <;> omega

/-- Multiplier of the exponent for the base bits. -/
def baseScale (base : Nat) : Int := if base = 0 then 1 else if base = 1 then 3 else 4

theorem scaleExponent_eq (base : Nat) (h : base < 3) (e : Int) (he : -32768 ≤ e ∧ e ≤ 32767) :
    scaleExponent base e = some (e * baseScale base) := by
  have h3 : (2147483647 : Int).tdiv 3 = 715827882 := by decide
  have h3' : (-2147483648 : Int).tdiv 3 = -715827882 := by decide
  have h4 : (2147483647 : Int).tdiv 4 = 536870911 := by decide
  have h4' : (-2147483648 : Int).tdiv 4 = -536870912 := by decide
  unfold scaleExponent baseScale
  rw [h3, h3', h4, h4']
  match base, h with
  | 0, _ => simp
  | 1, _ => simp only [if_true, Nat.one_ne_zero, if_false]; rw [if_pos (by split <;> omega)]
  | 2, _ =>
    simp only [if_true, show (2 : Nat) ≠ 1 by decide, show (2 : Nat) ≠ 0 by decide, if_false]
    rw [if_pos (by split <;> omega)]

/-- The exponent octets the decoder reads: one, or in the long form two, wherever the exponent ends. -/
def codeExponent (b : UInt8) (rest : Bytes) : Int :=
  if b.toNat % 4 = 3 then twosComplement ((rest.drop 1).take 2) else twosComplement (rest.take 1)

/-- `decode_real_binary` on any contents: rejected, or handed to the mantissa decoder. -/
theorem decodeRealBinary_eq (b : UInt8) (rest : Bytes) :
    ((¬ ∃ ex n, 3 ≤ rest.length ∧ b.toNat / 16 % 4 ≠ 3 ∧ realParts (b.toNat % 4) rest = some (ex, n) ∧ minimalInt ex ∧
        value256 n ≠ 0 ∧ ex.length ≤ 4) ∧ decodeRealBinary (b :: rest) = .ok none) ∨
    ∃ ex n, 3 ≤ rest.length ∧ b.toNat / 16 % 4 ≠ 3 ∧ realParts (b.toNat % 4) rest = some (ex, n) ∧ minimalInt ex ∧
      value256 n ≠ 0 ∧ ex.length ≤ 4 ∧ n.length ≤ rest.length ∧
      (-0xFFFFFF ≤ codeExponent b rest * baseScale (b.toNat / 16 % 4) + (b.toNat / 4 % 4 : Nat) ∧
        codeExponent b rest * baseScale (b.toNat / 16 % 4) + (b.toNat / 4 % 4 : Nat) ≤ 0xFFFFFF) ∧
      decodeRealBinary (b :: rest) =
        decodeMantissa (codeExponent b rest * baseScale (b.toNat / 16 % 4) + (b.toNat / 4 % 4 : Nat)) (b.toNat / 64 % 2) n := by
  obtain ⟨r, hr, hriff⟩ := check_eq b rest
  have hc := control_bits b
  cases r with
  | false =>
    refine .inl ⟨?_, by simp [decodeRealBinary, hr]⟩
    rintro ⟨ex, n, h1, h2, h3, h4, h5, _⟩
    exact nomatch hriff.mpr ⟨h1, h2, ex, n, h3, h4, h5⟩
  | true =>
    obtain ⟨h1, h2, ex, n, h3, h4, h5⟩ := hriff.mp rfl
    obtain ⟨len, off, p1, p2, p3, p4, p5, p6⟩ := exponentPos_eq b rest (by omega)
    have hgood : ¬ (len = 0 ∨ len + off ≥ (b :: rest).length + 1) := fun hh => by rw [p5 hh] at h3; cases h3
    have hp := p6 hgood
    rw [h3] at hp
    simp only [Option.some.injEq, Prod.mk.injEq] at hp
    obtain ⟨rfl, rfl⟩ := hp
    have hexl : (((b :: rest).drop off).take len).length = len := by
      simp only [List.length_take, List.length_drop]
      omega
    have hnl : ((b :: rest).drop (len + off)).length ≤ rest.length := by
      simp only [List.length_drop, List.length_cons]; omega
    by_cases h6 : len ≤ 4
    · right
      have hlen4 : (b :: rest).length = rest.length + 1 := rfl
      obtain ⟨e0, r1, r2⟩ := readExponent_eq (b :: rest) off p2 (by omega)
      have hcode : twosComplement (((b :: rest).drop off).take off) = codeExponent b rest := by
        unfold codeExponent
        by_cases hq : b.toNat % 4 = 3
        · obtain rfl := p3.mpr hq
          rw [if_pos hq]; rfl
        · have : off ≠ 2 := fun hh => hq (p3.mp hh)
          obtain rfl : off = 1 := by omega
          rw [if_neg hq]; rfl
      rw [hcode] at r2
      have hce : -32768 ≤ codeExponent b rest ∧ codeExponent b rest ≤ 32767 := by
        unfold codeExponent
        split <;> exact twosComplement_small _ (by simp only [List.length_take]; omega)
      have hbase : b.toNat / 16 % 4 < 3 := by omega
      have hbound : -0xFFFFFF ≤ codeExponent b rest * baseScale (b.toNat / 16 % 4) + (b.toNat / 4 % 4 : Nat) ∧
        codeExponent b rest * baseScale (b.toNat / 16 % 4) + (b.toNat / 4 % 4 : Nat) ≤ 0xFFFFFF := by
        unfold baseScale
        split
        · omega
        · split <;> omega
      refine ⟨_, _, h1, h2, h3, h4, h5, by omega, hnl, hbound, ?_⟩
      simp only [decodeRealBinary, hr, Exec.ok_bind, Bool.not_true, Bool.false_eq_true, if_false, p1, at_cons_zero, r1, r2,
        hc.2.1, hc.2.2.1, hc.2.2.2.1]
      rw [if_neg (by omega), scaleExponent_eq _ hbase _ hce]
      dsimp only
      rw [if_neg (by omega), if_neg (by omega)]
    · left
      refine ⟨?_, ?_⟩
      · rintro ⟨ex, n, _, _, h3', _, _, h7⟩
        rw [h3] at h3'
        simp only [Option.some.injEq, Prod.mk.injEq] at h3'
        rw [← h3'.1, hexl] at h7
        exact h6 h7
      · simp only [decodeRealBinary, hr, Exec.ok_bind, Bool.not_true, Bool.false_eq_true, if_false, p1]
        rw [if_pos (by omega)]

end FastBer
