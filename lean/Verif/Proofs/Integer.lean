import Verif.Model.Prims
import Verif.Spec.Int
import Verif.Proofs.Reader
/-! # Lemmas about INTEGER contents -/
namespace FastBer
open Spec

theorem value256_nil : value256 [] = 0 := rfl

theorem twos_skip0 (a b : UInt8) (r : Bytes) (ha : a.toNat = 0) (hb : b.toNat < 128) :
    twosComplement (a :: b :: r) = twosComplement (b :: r) := by
  simp only [twosComplement, ha]
  rw [if_neg (by omega), if_neg (by omega), value256_cons, ha]; simp

theorem twos_skip1 (a b : UInt8) (r : Bytes) (ha : a.toNat = 255) (hb : 128 ≤ b.toNat) :
    twosComplement (a :: b :: r) = twosComplement (b :: r) := by
  simp only [twosComplement]
  rw [if_pos (by omega), if_pos hb, value256_cons a, ha]
  have hc : ((256 : Int) ^ r.length) = ((256 ^ r.length : Nat) : Int) := by simp
  have hn : ((256 : Nat) ^ (b :: r).length) = 256 ^ r.length * 256 := by simp [Nat.pow_succ]
  simp only [List.length_cons, Int.pow_succ, hc] at *
  rw [hn]
  generalize (256 : Nat) ^ r.length = p
  omega

theorem and_80_eq' (b : UInt8) : ((b &&& 0x80) = 0) ↔ b.toNat < 128 := by
  have := and_80_ne b
  constructor
  · intro h; have := mt this.mpr (by simp [h]); omega
  · intro h; exact Decidable.byContradiction fun hc => by have := this.mp hc; omega

theorem skipZeros_step (a b : UInt8) (r : Bytes) :
    skipZeros (a :: b :: r) = if a.toNat = 0 ∧ b.toNat < 128 then skipZeros (b :: r) + 1 else 0 := by
  have h0 : a = 0 ↔ a.toNat = 0 := by
    constructor
    · rintro rfl; rfl
    · intro h; exact byte_ext h
  simp only [skipZeros, and_80_eq', h0]

theorem skipOnes_step (a b : UInt8) (r : Bytes) :
    skipOnes (a :: b :: r) = if a.toNat = 255 ∧ 128 ≤ b.toNat then skipOnes (b :: r) + 1 else 0 := by
  have h0 : a = 0xFF ↔ a.toNat = 255 := by
    constructor
    · rintro rfl; rfl
    · intro h; exact byte_ext h
  simp only [skipOnes, and_80_ne, h0]

/-- Dropping the counted octets keeps the value, leaves at least one octet and a minimal content. -/
theorem skip_spec (bs : Bytes) (h : bs ≠ []) :
    skipZeros bs + skipOnes bs < bs.length ∧
    twosComplement (bs.drop (skipZeros bs + skipOnes bs)) = twosComplement bs ∧
    minimalInt (bs.drop (skipZeros bs + skipOnes bs)) := by
  match bs with
  | [] => exact absurd rfl h
  | [a] => simp [skipZeros, skipOnes, minimalInt]
  | a :: b :: r =>
    obtain ⟨i1, i2, i3⟩ := skip_spec (b :: r) (by simp)
    rw [skipZeros_step, skipOnes_step]
    by_cases h0 : a.toNat = 0 ∧ b.toNat < 128
    · have hn : ¬ (a.toNat = 255 ∧ 128 ≤ b.toNat) := by omega
      rw [if_pos h0, if_neg hn]
      have ho : skipOnes (b :: r) = 0 := by
        cases r with
        | nil => rfl
        | cons c r => rw [skipOnes_step, if_neg (by omega)]
      rw [ho] at i1 i2 i3
      simp only [Nat.add_zero] at *
      refine ⟨by simp at i1 ⊢; omega, ?_, ?_⟩
      · rw [List.drop_succ_cons, i2, twos_skip0 a b r h0.1 h0.2]
      · rw [List.drop_succ_cons]; exact i3
    · by_cases h1 : a.toNat = 255 ∧ 128 ≤ b.toNat
      · rw [if_neg h0, if_pos h1]
        have ho : skipZeros (b :: r) = 0 := by
          cases r with
          | nil => rfl
          | cons c r => rw [skipZeros_step, if_neg (by omega)]
        rw [ho] at i1 i2 i3
        simp only [Nat.zero_add] at *
        refine ⟨by simp at i1 ⊢; omega, ?_, ?_⟩
        · rw [List.drop_succ_cons, i2, twos_skip1 a b r h1.1 h1.2]
        · rw [List.drop_succ_cons]; exact i3
      · rw [if_neg h0, if_neg h1]
        exact ⟨by simp, rfl, h0, h1⟩
termination_by bs.length

theorem be64_length (v : Int) : (be64 v).length = 8 := rfl

theorem value256_be64 (v : Int) : value256 (be64 v) = (v % 2 ^ 64).toNat := by
  have hlt : (v % 2 ^ 64).toNat < 2 ^ 64 := by omega
  simp only [be64, value256, List.foldl_cons, List.foldl_nil, lenByte_eq, toNat_ofNat]
  generalize (v % 2 ^ 64).toNat = n at *
  omega

theorem twosComplement_be64 (v : Int) (h : isInt64 v) : twosComplement (be64 v) = v := by
  have hv := value256_be64 v
  have hlen := be64_length v
  unfold isInt64 at h
  have hhead : ∃ b tl, be64 v = b :: tl ∧ b.toNat = (v % 2 ^ 64).toNat / 2 ^ 56 := by
    refine ⟨_, _, rfl, ?_⟩
    rw [lenByte_eq, toNat_ofNat]; omega
  obtain ⟨b, tl, e, hb⟩ := hhead
  rw [e] at hv hlen ⊢
  simp only [twosComplement, hv, hb, hlen]
  split <;> omega

theorem skip_be64 (v : Int) (h : isInt64 v) :
    let n := skipZeros (be64 v) + skipOnes (be64 v)
    n < 8 ∧ twosComplement ((be64 v).drop n) = v ∧ minimalInt ((be64 v).drop n) := by
  obtain ⟨a, b, c⟩ := skip_spec (be64 v) (by simp [be64])
  exact ⟨a, by rw [b, twosComplement_be64 v h], c⟩

/-- Canonical content octets of an `int64_t`. -/
def intContent (v : Int) : Bytes := (be64 v).drop (skipZeros (be64 v) + skipOnes (be64 v))

theorem intContent_length (v : Int) : 1 ≤ (intContent v).length ∧ (intContent v).length ≤ 8 := by
  obtain ⟨a, _, _⟩ := skip_spec (be64 v) (by simp [be64])
  have := be64_length v
  simp only [intContent, List.length_drop]; omega

theorem intContent_value (v : Int) (h : isInt64 v) : twosComplement (intContent v) = v :=
  (skip_be64 v h).2.1

theorem intContent_minimal (v : Int) : minimalInt (intContent v) :=
  (skip_spec (be64 v) (by simp [be64])).2.2

theorem encodeInteger_eq (out : Bytes) (v : Int) :
    encodeInteger out v = if out.length < (intContent v).length then (0, out)
      else ((intContent v).length, intContent v ++ out.drop (intContent v).length) := by
  have hl : (intContent v).length = 8 - (skipZeros (be64 v) + skipOnes (be64 v)) := by
    simp [intContent, be64_length]
  simp only [encodeInteger, ← hl]
  rfl

theorem int64OfLE_reverse (bs : Bytes) (h : bs.length = 8) :
    int64OfLE bs.reverse = twosComplement bs := by
  have hf : bs.reverse.foldr (fun b acc => b.toNat + 256 * acc) 0 = value256 bs := by
    rw [List.foldr_reverse, value256]
    congr 1
    funext acc b; omega
  have hlt := value256_lt bs
  simp only [int64OfLE, hf]
  cases bs with
  | nil => simp at h
  | cons b r =>
    simp only [twosComplement, h] at hlt ⊢
    have hc := value256_cons b r
    have hlt2 := value256_lt r
    simp only [List.length_cons] at h
    have h7 : r.length = 7 := by omega
    rw [h7] at hc hlt2
    have e7 : (256 : Nat) ^ 7 = 72057594037927936 := by decide
    have e8 : (256 : Nat) ^ 8 = 18446744073709551616 := by decide
    have e8' : (256 : Int) ^ 8 = 18446744073709551616 := by decide
    rw [e7] at hc hlt2; rw [e8] at hlt; rw [e8']
    split <;> split <;> omega

/-- Sign extension. -/
theorem twos_extend (k : Nat) (b : UInt8) (r : Bytes) :
    twosComplement (List.replicate k (if 128 ≤ b.toNat then 0xFF else 0x00) ++ b :: r)
      = twosComplement (b :: r) := by
  induction k with
  | zero => rfl
  | succ k ih =>
    rw [List.replicate_succ, List.cons_append]
    cases k with
    | zero =>
      simp only [List.replicate_zero, List.nil_append]
      split
      · exact twos_skip1 _ _ _ rfl (by assumption)
      · exact twos_skip0 _ _ _ rfl (by omega)
    | succ k =>
      rw [← ih, List.replicate_succ, List.cons_append]
      split
      · exact twos_skip1 _ _ _ rfl (by decide)
      · exact twos_skip0 _ _ _ rfl (by decide)

theorem decodeIntegerLoop_eq (f : UInt8) (input : Bytes) (h1 : 1 ≤ input.length) (h2 : input.length ≤ 8) :
    decodeIntegerLoop (List.replicate 8 f) (8 - input.length) input
      = (List.replicate (8 - input.length) f ++ input).reverse := by
  match input, h1, h2 with
  | [_], _, _ => rfl
  | [_, _], _, _ => rfl
  | [_, _, _], _, _ => rfl
  | [_, _, _, _], _, _ => rfl
  | [_, _, _, _, _], _, _ => rfl
  | [_, _, _, _, _, _], _, _ => rfl
  | [_, _, _, _, _, _, _], _, _ => rfl
  | [_, _, _, _, _, _, _, _], _, _ => rfl
  | _ :: _ :: _ :: _ :: _ :: _ :: _ :: _ :: _ :: _, _, h2 => simp at h2

theorem decodeInteger_eq (input : Bytes) (out0 : Int) :
    decodeInteger input out0 =
      if 1 ≤ input.length ∧ input.length ≤ 8 then (true, twosComplement input) else (false, out0) := by
  unfold decodeInteger
  by_cases h : input.length = 0 ∨ input.length > 8
  · rw [if_pos h, if_neg (by omega)]
  · have h' : 1 ≤ input.length ∧ input.length ≤ 8 := by omega
    rw [if_neg h, if_pos h']
    simp only
    rw [decodeIntegerLoop_eq _ _ (by omega) (by omega), int64OfLE_reverse]
    · cases input with
      | nil => simp at h
      | cons b r =>
        have hf : (if (b &&& 0x80) ≠ 0 then (0xFF : UInt8) else 0x00) = if 128 ≤ b.toNat then 0xFF else 0x00 := by
          simp only [and_80_ne]
        rw [List.headD_cons, hf, twos_extend]
    · simp; omega

theorem twosComplement_int64 (bs : Bytes) (h : bs.length ≤ 8) : isInt64 (twosComplement bs) := by
  unfold isInt64 twosComplement
  cases bs with
  | nil => simp
  | cons b r =>
    have hc := value256_cons b r
    have hlt2 := value256_lt r
    have hb := b.toNat_lt
    simp only [List.length_cons] at h
    have hp : 256 ^ r.length ≤ 256 ^ 7 := Nat.pow_le_pow_right (by decide) (by omega)
    have e7 : (256 : Nat) ^ 7 = 72057594037927936 := by decide
    rw [e7] at hp
    have hpos : 0 < 256 ^ r.length := Nat.pow_pos (by decide)
    have hcast : ((256 : Int) ^ r.length) = ((256 ^ r.length : Nat) : Int) := by simp
    simp only [List.length_cons, Int.pow_succ, hcast]
    generalize 256 ^ r.length = p at *
    have h128 : b.toNat * p < 256 * p := Nat.mul_lt_mul_of_pos_right hb hpos
    split
    · rename_i hge
      have : 128 * p ≤ b.toNat * p := Nat.mul_le_mul_right _ hge
      omega
    · have : b.toNat * p ≤ 127 * p := Nat.mul_le_mul_right _ (by omega)
      omega

end FastBer
