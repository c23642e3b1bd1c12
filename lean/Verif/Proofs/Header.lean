import Verif.Model.Header
import Verif.Spec.X690
/-! # Lemmas: identifier octets, length octets, headers -/
namespace FastBer
open Spec

set_option maxRecDepth 100000
set_option linter.unusedSimpArgs false

/-! ## Single octets -/

theorem and_7F (b : UInt8) : (b &&& 0x7F).toNat = b.toNat % 128 := by
  simpa using Nat.and_two_pow_sub_one_eq_mod b.toNat 7

theorem and_1F (b : UInt8) : (b &&& 0x1F).toNat = b.toNat % 32 := by
  simpa using Nat.and_two_pow_sub_one_eq_mod b.toNat 5

theorem and_80_eq (b : UInt8) : ((b &&& 0x80) == 0) = decide (b.toNat < 128) := by
  revert b; apply forall_byte; decide

theorem and_80_ne (b : UInt8) : ((b &&& 0x80) ≠ 0) ↔ 128 ≤ b.toNat := by
  revert b; apply forall_byte; decide

theorem and_1F_eq (b : UInt8) : (b &&& 0x1F) = 0x1F ↔ b.toNat % 32 = 31 := by
  revert b; apply forall_byte; decide

theorem or_80 (n : Nat) (h : n < 128) : UInt8.ofNat n ||| 0x80 = UInt8.ofNat (128 + n) := by
  have : ∀ m : Fin 128, UInt8.ofNat m.val ||| 0x80 = UInt8.ofNat (128 + m.val) := by decide
  exact this ⟨n, h⟩

theorem first_short (c : Class) (k : Construction) (t : Nat) (h : t ≤ 30) :
    addShortTag (addClass (addConstruction 0 k) c) t = UInt8.ofNat (c.toNat * 64 + k.toNat * 32 + t) := by
  have : ∀ m : Fin 31, addShortTag (addClass (addConstruction 0 k) c) m.val
      = UInt8.ofNat (c.toNat * 64 + k.toNat * 32 + m.val) := by
    cases c <;> cases k <;> decide
  exact this ⟨t, by omega⟩

theorem first_long (c : Class) (k : Construction) :
    (addClass (addConstruction 0 k) c ||| 0x1F) = UInt8.ofNat (c.toNat * 64 + k.toNat * 32 + 31) := by
  cases c <;> cases k <;> decide

theorem getClass_first (c : Class) (k : Construction) (t : Nat) (h : t ≤ 31) :
    getClass (UInt8.ofNat (c.toNat * 64 + k.toNat * 32 + t)) = c := by
  have : ∀ m : Fin 32, getClass (UInt8.ofNat (c.toNat * 64 + k.toNat * 32 + m.val)) = c := by
    cases c <;> cases k <;> decide
  exact this ⟨t, by omega⟩

theorem getConstruction_first (c : Class) (k : Construction) (t : Nat) (h : t ≤ 31) :
    getConstruction (UInt8.ofNat (c.toNat * 64 + k.toNat * 32 + t)) = k := by
  have : ∀ m : Fin 32, getConstruction (UInt8.ofNat (c.toNat * 64 + k.toNat * 32 + m.val)) = k := by
    cases c <;> cases k <;> decide
  exact this ⟨t, by omega⟩

theorem first_mod (c : Class) (k : Construction) (t : Nat) (h : t ≤ 31) :
    (UInt8.ofNat (c.toNat * 64 + k.toNat * 32 + t)).toNat % 32 = t := by
  cases c <;> cases k <;> simp [Class.toNat, Construction.toNat] <;> omega

/-! ## base 128 -/

theorem base128Cont_zero : base128Cont 0 = [] := by rw [base128Cont]; simp

theorem base128Cont_pos {n : Nat} (h : n ≠ 0) :
    base128Cont n = base128Cont (n / 128) ++ [UInt8.ofNat (128 + n % 128)] := by
  rw [base128Cont]; simp [h]

/-- Number of base-128 digits. -/
theorem length_base128Cont (k n : Nat) (h1 : 128 ^ k ≤ n) (h2 : n < 128 ^ (k + 1)) :
    (base128Cont n).length = k + 1 := by
  induction k generalizing n with
  | zero =>
    rw [base128Cont_pos (by simp at h1; omega)]
    have : n / 128 = 0 := by simp at h2; omega
    simp [this, base128Cont_zero]
  | succ k ih =>
    have hpos : 0 < 128 ^ (k + 1) := Nat.pow_pos (by decide)
    rw [base128Cont_pos (by omega)]
    have a : 128 ^ k ≤ n / 128 := by
      rw [Nat.le_div_iff_mul_le (by decide)]; rw [Nat.pow_succ] at h1; exact h1
    have b : n / 128 < 128 ^ (k + 1) := by
      rw [Nat.div_lt_iff_lt_mul (by decide)]; rw [Nat.pow_succ] at h2; exact h2
    simp [ih _ a b]

theorem length_base128_pos (n : Nat) : 0 < (base128 n).length := by simp [base128]

/-- `encoded_tag_length` is the size of the X.690 identifier octets. -/
theorem length_identifierOctets (c : Class) (k : Construction) (t : Nat) (h : t < 2 ^ 63) :
    (identifierOctets c k t).length = encodedTagLength (t : Int) := by
  unfold identifierOctets encodedTagLength
  by_cases h30 : t ≤ 30
  · simp [h30]
    have : ¬ ((t : Int) < 0) := by omega
    simp [this]; omega
  · simp only [h30, if_false]
    have e0 : ¬ ((t : Int) < 0) := by omega
    have e1 : ¬ ((t : Int) ≤ 30) := by omega
    simp only [e0, e1, if_false, List.length_cons, base128, List.length_append, List.length_nil]
    by_cases a1 : t < 128
    · have : t / 128 = 0 := by omega
      rw [if_pos (by omega)]; simp [this, base128Cont_zero]
    rw [if_neg (by omega)]
    have L := fun k a b => length_base128Cont k (t / 128) a b
    by_cases a2 : t < 16384
    · rw [if_pos (by omega), L 0 (by omega) (by omega)]
    rw [if_neg (by omega)]
    by_cases a3 : t < 2097152
    · rw [if_pos (by omega), L 1 (by omega) (by omega)]
    rw [if_neg (by omega)]
    by_cases a4 : t < 268435456
    · rw [if_pos (by omega), L 2 (by omega) (by omega)]
    rw [if_neg (by omega)]
    by_cases a5 : t < 34359738368
    · rw [if_pos (by omega), L 3 (by omega) (by omega)]
    rw [if_neg (by omega)]
    by_cases a6 : t < 4398046511104
    · rw [if_pos (by omega), L 4 (by omega) (by omega)]
    rw [if_neg (by omega)]
    by_cases a7 : t < 562949953421312
    · rw [if_pos (by omega), L 5 (by omega) (by omega)]
    rw [if_neg (by omega)]
    by_cases a8 : t < 72057594037927936
    · rw [if_pos (by omega), L 6 (by omega) (by omega)]
    rw [if_neg (by omega), L 7 (by omega) (by omega)]

/-! ## encode_tag -/

/-- Digits in the order in which the loop writes them. -/
def leDigits (first : Bool) (t : Nat) : Bytes :=
  (if first then UInt8.ofNat (t % 128) else UInt8.ofNat (128 + t % 128)) ::
    (if h : t / 128 = 0 then [] else leDigits false (t / 128))
termination_by t
decreasing_by omega

theorem leDigits_false_reverse (t : Nat) (h : t ≠ 0) : (leDigits false t).reverse = base128Cont t := by
  induction t using Nat.strongRecOn with
  | ind t ih =>
    rw [leDigits, base128Cont_pos h]
    by_cases h0 : t / 128 = 0
    · simp [h0, base128Cont_zero]
    · simp [h0, ih (t / 128) (by omega)]

theorem leDigits_true_reverse (t : Nat) : (leDigits true t).reverse = base128 t := by
  rw [leDigits, base128]
  by_cases h0 : t / 128 = 0
  · simp [h0, base128Cont_zero]
  · simp [h0, leDigits_false_reverse]

theorem reverseFrom1_eq (h : UInt8) (p : Bytes) (rest : Bytes) :
    reverseFrom1 (h :: (p ++ rest)) p.length = h :: (p.reverse ++ rest) := by
  simp [reverseFrom1, Nat.add_comm]

theorem encodeTagLoop_spec (h : UInt8) (p rest : Bytes) (t : Nat) :
    encodeTagLoop (h :: (p ++ rest)) (p.length + 1) t =
      if (leDigits p.isEmpty t).length ≤ rest.length
      then (p.length + 1 + (leDigits p.isEmpty t).length,
            h :: ((p ++ leDigits p.isEmpty t).reverse ++ rest.drop (leDigits p.isEmpty t).length))
      else (0, (encodeTagLoop (h :: (p ++ rest)) (p.length + 1) t).2) := by
  induction t using Nat.strongRecOn generalizing p rest with
  | ind t ih =>
    cases rest with
    | nil =>
      rw [encodeTagLoop, leDigits]; simp
    | cons r rest =>
      have hd : (if p.length + 1 ≠ 1 then UInt8.ofNat (t % 128) ||| 0x80 else UInt8.ofNat (t % 128))
          = (if p.isEmpty then UInt8.ofNat (t % 128) else UInt8.ofNat (128 + t % 128)) := by
        cases p with
        | nil => simp
        | cons a p => simp [or_80 (t % 128) (by omega)]
      have hset : ∀ d : UInt8, (h :: (p ++ r :: rest)).set (p.length + 1) d = h :: ((p ++ [d]) ++ rest) := by
        intro d; simp [List.set_append]
      rw [encodeTagLoop]
      have hlt : p.length + 1 < (h :: (p ++ r :: rest)).length := by simp
      simp only [hlt, dif_pos]
      rw [hd, hset, leDigits]
      generalize (if p.isEmpty then UInt8.ofNat (t % 128) else UInt8.ofNat (128 + t % 128)) = d
      by_cases h0 : t / 128 = 0
      · have hl : p.length + 1 = (p ++ [d]).length := by simp
        simp only [h0, if_pos, dif_pos]
        rw [hl, reverseFrom1_eq]; simp
      · simp only [h0, if_false, dif_neg, not_false_iff]
        have := ih (t / 128) (by omega) (p ++ [d]) rest
        have hl : (p ++ [d]).length + 1 = p.length + 1 + 1 := by simp
        have hne : (p ++ [d]).isEmpty = false := by cases p <;> rfl
        rw [hl, hne] at this
        rw [this]
        simp only [List.length_cons, Nat.add_le_add_iff_right]
        split
        · simp only [List.length_append, List.length_cons, List.length_nil, List.append_assoc,
            List.cons_append, List.nil_append, List.drop_succ_cons, Prod.mk.injEq, and_true]
          omega
        · rfl

theorem length_encodeTagLoop (out : Bytes) (i t : Nat) :
    (encodeTagLoop out i t).2.length = out.length := by
  induction t using Nat.strongRecOn generalizing out i with
  | ind t ih =>
    rw [encodeTagLoop]
    split
    · dsimp only
      split
      · simp [reverseFrom1]; omega
      · rw [ih (t / 128) (by omega)]; simp
    · rfl

theorem length_encodeTag (out : Bytes) (t : Int) : (encodeTag out t).2.length = out.length := by
  unfold encodeTag
  split
  · rfl
  · split
    · rfl
    · split
      · simp
      · rw [length_encodeTagLoop]; simp

theorem length_encodeIdentifier (out : Bytes) (k : Construction) (c : Class) (t : Int) :
    (encodeIdentifier out k c t).2.length = out.length := by
  unfold encodeIdentifier
  split
  · rfl
  · rw [length_encodeTag]; simp

theorem encodeIdentifier_nonneg (out : Bytes) (k : Construction) (c : Class) (t : Nat) :
    (identifierOctets c k t).length ≤ out.length →
    encodeIdentifier out k c (t : Int) =
      ((identifierOctets c k t).length,
        identifierOctets c k t ++ out.drop (identifierOctets c k t).length) := by
  intro h
  cases out with
  | nil =>
    exfalso; unfold identifierOctets at h
    split at h <;> simp at h
  | cons b rest =>
    have hn : ¬ ((t : Int) < 0) := by omega
    simp only [encodeIdentifier, encodeTag, hn, if_false]
    by_cases h30 : t ≤ 30
    · have h30' : (t : Int) ≤ 30 := by omega
      simp [identifierOctets, h30, h30', first_short]
    · have h30' : ¬ (t : Int) ≤ 30 := by omega
      simp only [h30', if_false, first_long, Int.toNat_natCast]
      have := encodeTagLoop_spec (UInt8.ofNat (c.toNat * 64 + k.toNat * 32 + 31)) [] rest t
      simp only [List.nil_append, List.length_nil, List.isEmpty_nil, Nat.zero_add] at this
      rw [this]
      have hrev := leDigits_true_reverse t
      have hlen : (leDigits true t).length = (base128 t).length := by rw [← hrev]; simp
      simp only [identifierOctets, h30, if_false, List.length_cons] at h ⊢
      rw [hrev, hlen, if_pos (by omega)]
      simp; omega

theorem encodeIdentifier_short (out : Bytes) (k : Construction) (c : Class) (t : Nat)
    (h : out.length < (identifierOctets c k t).length) :
    (encodeIdentifier out k c (t : Int)).1 = 0 := by
  cases out with
  | nil => rfl
  | cons b rest =>
    have hn : ¬ ((t : Int) < 0) := by omega
    simp only [encodeIdentifier, encodeTag, hn, if_false]
    by_cases h30 : t ≤ 30
    · simp [identifierOctets, h30] at h
    · have h30' : ¬ (t : Int) ≤ 30 := by omega
      simp only [h30', if_false, first_long, Int.toNat_natCast]
      have := encodeTagLoop_spec (UInt8.ofNat (c.toNat * 64 + k.toNat * 32 + 31)) [] rest t
      simp only [List.nil_append, List.length_nil, List.isEmpty_nil, Nat.zero_add] at this
      rw [this]
      have hrev := leDigits_true_reverse t
      have hlen : (leDigits true t).length = (base128 t).length := by rw [← hrev]; simp
      simp only [identifierOctets, h30, if_false, List.length_cons] at h ⊢
      rw [hlen, if_neg (by omega)]

theorem encodeIdentifier_neg (out : Bytes) (k : Construction) (c : Class) (t : Int) (h : t < 0) :
    (encodeIdentifier out k c t).1 = 0 := by
  cases out <;> simp [encodeIdentifier, encodeTag, h]

/-! ## extract_tag reads what encode_identifier writes -/

theorem extractTagLoop_last (i : Nat) (acc : Int) (d : Nat) (suffix : Bytes) (hd : d < 128)
    (h : acc + d < 2 ^ 63) :
    extractTagLoop i acc (UInt8.ofNat d :: suffix) = .ok (i + 1, acc + d) := by
  have hm : d % 256 = d := Nat.mod_eq_of_lt (by omega)
  have hm2 : d % 128 = d := Nat.mod_eq_of_lt hd
  simp only [extractTagLoop, and_7F, toNat_ofNat, hm, hm2, and_80_eq, hd, decide_true, if_true]
  rw [if_neg (by omega)]

theorem extractTagLoop_cont (n : Nat) (i : Nat) (rest : Bytes) (hn : n * 128 < 2 ^ 63) :
    extractTagLoop i 0 (base128Cont n ++ rest) =
      extractTagLoop (i + (base128Cont n).length) ((n * 128 : Nat) : Int) rest := by
  induction n using Nat.strongRecOn generalizing rest i with
  | ind n ih =>
    by_cases h0 : n = 0
    · subst h0; simp [base128Cont_zero]
    · rw [base128Cont_pos h0, List.append_assoc, ih (n / 128) (by omega) _ _ (by omega)]
      have e : (128 + n % 128) % 256 = 128 + n % 128 := by omega
      have e2 : (128 + n % 128) % 128 = n % 128 := by omega
      simp only [List.singleton_append, extractTagLoop, and_7F, toNat_ofNat, e, e2, and_80_eq]
      have e3 : ((n / 128 * 128 : Nat) : Int) + ((n % 128 : Nat) : Int) = n := by omega
      rw [e3, if_neg (by omega)]
      have e4 : ¬ (128 + n % 128 < 128) := by omega
      simp only [e4, decide_false, Bool.false_eq_true, if_false]
      rw [if_neg (by omega)]
      simp [Nat.add_assoc]

theorem extractTag_identifierOctets (c : Class) (k : Construction) (t : Nat) (suffix : Bytes) (tag0 : Int)
    (h : t < 2 ^ 63) :
    extractTag (identifierOctets c k t ++ suffix) tag0 =
      .ok ((identifierOctets c k t).length, (t : Int)) := by
  by_cases h30 : t ≤ 30
  · simp only [identifierOctets, h30, if_true, List.singleton_append, extractTag]
    have hm := first_mod c k t (by omega)
    have hne : ¬ ((UInt8.ofNat (c.toNat * 64 + k.toNat * 32 + t) &&& 0x1F) = 0x1F) := by
      rw [and_1F_eq, hm]; omega
    rw [if_pos hne, and_1F, hm]
    rfl
  · simp only [identifierOctets, h30, if_false, List.cons_append, extractTag]
    have hm := first_mod c k 31 (by omega)
    have heq : (UInt8.ofNat (c.toNat * 64 + k.toNat * 32 + 31) &&& 0x1F) = 0x1F := by
      rw [and_1F_eq, hm]
    rw [if_neg (fun hc => hc heq), base128, List.append_assoc, extractTagLoop_cont _ _ _ (by omega),
      List.singleton_append, extractTagLoop_last _ _ _ _ (by omega) (by omega)]
    simp only [List.length_cons, List.length_append, List.length_nil, Exec.ok.injEq, Prod.mk.injEq]
    constructor <;> omega

/-! ## length octets -/

theorem base256_zero : base256 0 = [] := by rw [base256]; simp

theorem base256_pos {n : Nat} (h : n ≠ 0) :
    base256 n = base256 (n / 256) ++ [UInt8.ofNat (n % 256)] := by
  rw [base256]; simp [h]

private theorem b256step {n m : Nat} {l : Bytes} (h : n ≠ 0) (hm : m = n / 256) (hl : base256 m = l) :
    base256 n = l ++ [UInt8.ofNat (n % 256)] := by
  rw [base256_pos h, ← hm, hl]

/-- The octets `encode_length` writes for a length (when there is room) are the X.690 ones. -/
theorem length_base256 (k n : Nat) (h1 : 256 ^ k ≤ n) (h2 : n < 256 ^ (k + 1)) :
    (base256 n).length = k + 1 := by
  induction k generalizing n with
  | zero =>
    rw [base256_pos (by simp at h1; omega)]
    have : n / 256 = 0 := by simp at h2; omega
    simp [this, base256_zero]
  | succ k ih =>
    have hpos : 0 < 256 ^ (k + 1) := Nat.pow_pos (by decide)
    rw [base256_pos (by omega)]
    have a : 256 ^ k ≤ n / 256 := by
      rw [Nat.le_div_iff_mul_le (by decide)]; rw [Nat.pow_succ] at h1; exact h1
    have b : n / 256 < 256 ^ (k + 1) := by
      rw [Nat.div_lt_iff_lt_mul (by decide)]; rw [Nat.pow_succ] at h2; exact h2
    simp [ih _ a b]

theorem length_lengthOctets (n : Nat) (h : n < 2 ^ 64) :
    (lengthOctets n).length = encodedLengthLength n := by
  unfold lengthOctets encodedLengthLength
  by_cases a0 : n < 0x80
  · simp [a0]
  rw [if_neg (by omega), if_neg a0, List.length_cons]
  have L := fun k a b => length_base256 k n a b
  by_cases a1 : n ≤ 0xFF
  · rw [if_pos a1, L 0 (by omega) (by omega)]
  rw [if_neg a1]
  by_cases a2 : n ≤ 0xFFFF
  · rw [if_pos a2, L 1 (by omega) (by omega)]
  rw [if_neg a2]
  by_cases a3 : n ≤ 0xFFFFFF
  · rw [if_pos a3, L 2 (by omega) (by omega)]
  rw [if_neg a3]
  by_cases a4 : n ≤ 0xFFFFFFFF
  · rw [if_pos a4, L 3 (by omega) (by omega)]
  rw [if_neg a4]
  by_cases a5 : n ≤ 0xFFFFFFFFFF
  · rw [if_pos a5, L 4 (by omega) (by omega)]
  rw [if_neg a5]
  by_cases a6 : n ≤ 0xFFFFFFFFFFFF
  · rw [if_pos a6, L 5 (by omega) (by omega)]
  rw [if_neg a6]
  by_cases a7 : n ≤ 0xFFFFFFFFFFFFFF
  · rw [if_pos a7, L 6 (by omega) (by omega)]
  rw [if_neg a7, L 7 (by omega) (by omega)]

theorem lenByte_eq (n s : Nat) : lenByte n s = UInt8.ofNat (n / 2 ^ s) := by
  simp [lenByte, Nat.shiftRight_eq_div_pow]

/-- `k` big-endian octets of `n`. -/
def octetsBE : Nat → Nat → Bytes
  | 0, _ => []
  | k + 1, n => octetsBE k (n / 256) ++ [UInt8.ofNat (n % 256)]

theorem base256_octetsBE (k n : Nat) (h1 : 256 ^ k ≤ n) (h2 : n < 256 ^ (k + 1)) :
    base256 n = octetsBE (k + 1) n := by
  induction k generalizing n with
  | zero =>
    rw [base256_pos (by simp at h1; omega)]
    have : n / 256 = 0 := by simp at h2; omega
    simp [this, base256_zero, octetsBE]
  | succ k ih =>
    have hpos : 0 < 256 ^ (k + 1) := Nat.pow_pos (by decide)
    rw [base256_pos (by omega), octetsBE]
    have a : 256 ^ k ≤ n / 256 := by
      rw [Nat.le_div_iff_mul_le (by decide)]; rw [Nat.pow_succ] at h1; exact h1
    have b : n / 256 < 256 ^ (k + 1) := by
      rw [Nat.div_lt_iff_lt_mul (by decide)]; rw [Nat.pow_succ] at h2; exact h2
    rw [ih _ a b]

theorem ofNat_mod_256 (n : Nat) : UInt8.ofNat (n % 256) = UInt8.ofNat n := by
  apply byte_ext; simp

theorem encodeLength_fits (out : Bytes) (n : Nat) (hn : n < 2 ^ 64)
    (h : encodedLengthLength n ≤ out.length) :
    encodeLength out n = (encodedLengthLength n, lengthOctets n ++ out.drop (encodedLengthLength n)) := by
  unfold encodeLength encodedLengthLength lengthOctets at *
  by_cases a0 : n < 0x80
  · simp only [a0, if_true] at h ⊢
    rw [if_pos ⟨trivial, h⟩]
    simp [writePrefix, lenByte]
  rw [if_neg a0] at h
  rw [if_neg (by omega : ¬ (n < 0x80 ∧ _))]
  simp only [if_neg a0, if_neg (by omega : ¬ n < 128)]
  have L := fun k a b => length_base256 k n a b
  have O := fun k a b => base256_octetsBE k n a b
  have wp : ∀ (k : Nat) (hd : UInt8) (l : Bytes), l.length = k →
      writePrefix out (hd :: l) = hd :: l ++ out.drop (k + 1) := by
    intro k hd l hl; simp [writePrefix, hl]
  have fin : ∀ (k : Nat) (a : 256 ^ k ≤ n) (b : n < 256 ^ (k + 1)) (hd : UInt8) (l : Bytes),
      l = octetsBE (k + 1) n → hd = UInt8.ofNat (128 + (k + 1)) → l.length = k + 1 →
      (k + 2, writePrefix out (hd :: l)) =
      (k + 2, UInt8.ofNat (128 + (base256 n).length) :: base256 n ++ out.drop (k + 2)) := by
    intro k a b hd l hl hhd hlen
    rw [wp (k + 1) hd l hlen, L k a b, O k a b, ← hl, hhd]
  by_cases a1 : n ≤ 0xFF
  · rw [if_pos a1] at h; simp only [if_pos a1]; rw [if_pos ⟨by assumption, by omega⟩]
    apply fin 0 (by omega) (by omega) _ _ _ rfl rfl
    simp [octetsBE, lenByte_eq, ofNat_mod_256]
  rw [if_neg a1] at h; simp only [if_neg a1]; rw [if_neg (by omega)]
  by_cases a2 : n ≤ 0xFFFF
  · rw [if_pos a2] at h; simp only [if_pos a2]; rw [if_pos ⟨by assumption, by omega⟩]
    apply fin 1 (by omega) (by omega) _ _ _ rfl rfl
    simp [octetsBE, lenByte_eq, Nat.div_div_eq_div_mul, ofNat_mod_256]
  rw [if_neg a2] at h; simp only [if_neg a2]; rw [if_neg (by omega)]
  by_cases a3 : n ≤ 0xFFFFFF
  · rw [if_pos a3] at h; simp only [if_pos a3]; rw [if_pos ⟨by assumption, by omega⟩]
    apply fin 2 (by omega) (by omega) _ _ _ rfl rfl
    simp [octetsBE, lenByte_eq, Nat.div_div_eq_div_mul, ofNat_mod_256]
  rw [if_neg a3] at h; simp only [if_neg a3]; rw [if_neg (by omega)]
  by_cases a4 : n ≤ 0xFFFFFFFF
  · rw [if_pos a4] at h; simp only [if_pos a4]; rw [if_pos ⟨by assumption, by omega⟩]
    apply fin 3 (by omega) (by omega) _ _ _ rfl rfl
    simp [octetsBE, lenByte_eq, Nat.div_div_eq_div_mul, ofNat_mod_256]
  rw [if_neg a4] at h; simp only [if_neg a4]; rw [if_neg (by omega)]
  by_cases a5 : n ≤ 0xFFFFFFFFFF
  · rw [if_pos a5] at h; simp only [if_pos a5]; rw [if_pos ⟨by assumption, by omega⟩]
    apply fin 4 (by omega) (by omega) _ _ _ rfl rfl
    simp [octetsBE, lenByte_eq, Nat.div_div_eq_div_mul, ofNat_mod_256]
  rw [if_neg a5] at h; simp only [if_neg a5]; rw [if_neg (by omega)]
  by_cases a6 : n ≤ 0xFFFFFFFFFFFF
  · rw [if_pos a6] at h; simp only [if_pos a6]; rw [if_pos ⟨by assumption, by omega⟩]
    apply fin 5 (by omega) (by omega) _ _ _ rfl rfl
    simp [octetsBE, lenByte_eq, Nat.div_div_eq_div_mul, ofNat_mod_256]
  rw [if_neg a6] at h; simp only [if_neg a6]; rw [if_neg (by omega)]
  by_cases a7 : n ≤ 0xFFFFFFFFFFFFFF
  · rw [if_pos a7] at h; simp only [if_pos a7]; rw [if_pos ⟨by assumption, by omega⟩]
    apply fin 6 (by omega) (by omega) _ _ _ rfl rfl
    simp [octetsBE, lenByte_eq, Nat.div_div_eq_div_mul, ofNat_mod_256]
  rw [if_neg a7] at h; simp only [if_neg a7]; rw [if_neg (by omega), if_pos (by omega)]
  apply fin 7 (by omega) (by omega) _ _ _ rfl rfl
  simp [octetsBE, lenByte_eq, Nat.div_div_eq_div_mul, ofNat_mod_256]

theorem encodeLength_short (out : Bytes) (n : Nat) (h : out.length < encodedLengthLength n) :
    encodeLength out n = (0, out) := by
  unfold encodeLength encodedLengthLength at *
  repeat' split at h
  all_goals (repeat rw [if_neg (by omega)])

theorem length_encodeLength (out : Bytes) (n : Nat) : (encodeLength out n).2.length = out.length := by
  unfold encodeLength
  repeat' split
  all_goals first | rfl | (apply length_writePrefix; simp; omega)

/-! ## extract_length -/

theorem extractLengthLoop_append (acc : Nat) (a b : Bytes) :
    extractLengthLoop acc (a ++ b) = extractLengthLoop (extractLengthLoop acc a) b := by
  induction a generalizing acc with
  | nil => rfl
  | cons x a ih => simp [extractLengthLoop, ih]

theorem value256_append (a : Bytes) (b : UInt8) : value256 (a ++ [b]) = value256 a * 256 + b.toNat := by
  simp [value256, List.foldl_append]

theorem value256_lt (a : Bytes) : value256 a < 256 ^ a.length := by
  induction h : a.length generalizing a with
  | zero => cases a <;> simp_all [value256]
  | succ k ih =>
    rcases List.eq_nil_or_concat a with rfl | ⟨a', b, rfl⟩
    · simp at h
    · have h' : a'.length = k := by simpa using h
      have := ih a' h'
      rw [List.concat_eq_append, value256_append]
      have hb := b.toNat_lt
      rw [Nat.pow_succ]; omega

/-- The loop computes the big-endian value, without wrap for at most 8 octets. -/
theorem extractLengthLoop_eq (a : Bytes) (h : a.length ≤ 8) : extractLengthLoop 0 a = value256 a := by
  induction hk : a.length generalizing a with
  | zero => cases a <;> simp_all [value256, extractLengthLoop]
  | succ k ih =>
    rcases List.eq_nil_or_concat a with rfl | ⟨a', b, rfl⟩
    · simp at hk
    · have h' : a'.length = k := by simpa using hk
      rw [List.concat_eq_append, value256_append, extractLengthLoop_append, ih a' (by omega) h']
      have hb := b.toNat_lt
      have hv := value256_lt a'
      have hv2 : value256 a' < 256 ^ 7 := by
        refine Nat.lt_of_lt_of_le hv (Nat.pow_le_pow_right (by decide) ?_)
        simp at h; omega
      simp only [extractLengthLoop]
      rw [u64_of_lt (n := value256 a' * 0x100) (by omega), u64_of_lt (by omega)]

theorem value256_base256 (n : Nat) : value256 (base256 n) = n := by
  induction n using Nat.strongRecOn with
  | ind n ih =>
    by_cases h : n = 0
    · subst h; simp [base256_zero, value256]
    · rw [base256_pos h, value256_append, ih (n / 256) (by omega)]
      simp; omega

theorem length_base256_le (n : Nat) (h : n < 2 ^ 64) : (base256 n).length ≤ 8 := by
  by_cases h0 : n < 128
  · by_cases h1 : n = 0
    · simp [h1, base256_zero]
    · rw [length_base256 0 n (by omega) (by omega)]; omega
  · have := length_lengthOctets n h
    rw [lengthOctets, if_neg h0, List.length_cons, encodedLengthLength] at this
    repeat' split at this
    all_goals omega

theorem base256_ne_nil {n : Nat} (h : n ≠ 0) : base256 n ≠ [] := by rw [base256_pos h]; simp

theorem extractLength_lengthOctets (pre : Bytes) (n : Nat) (suffix : Bytes) (len0 : Nat) (h : n < 2 ^ 64) :
    extractLength (pre ++ (lengthOctets n ++ suffix)) len0 pre.length =
      .ok ((lengthOctets n).length, n) := by
  unfold extractLength
  rw [if_neg (by simp)]
  simp only [List.drop_left']
  unfold lengthOctets
  by_cases h0 : n < 128
  · have hm : n % 256 = n := by omega
    simp [h0, and_80_eq, hm]
  · simp only [h0, if_false, List.cons_append]
    have hl := length_base256_le n h
    have hpos : 0 < (base256 n).length := List.length_pos_iff.mpr (base256_ne_nil (by omega))
    have e : (128 + (base256 n).length) % 256 = 128 + (base256 n).length := by omega
    have e2 : (128 + (base256 n).length) % 128 = (base256 n).length := by omega
    simp only [and_80_eq, and_7F, toNat_ofNat, e, e2]
    have e4 : ¬ (128 + (base256 n).length < 128) := by omega
    simp only [e4, decide_false, Bool.false_eq_true, if_false]
    rw [if_neg (by simp only [List.length_append]; omega)]
    simp [extractLengthLoop_eq _ hl, value256_base256]

/-! ## encode_header -/

theorem length_header (c : Class) (k : Construction) (t n : Nat) (ht : t < 2 ^ 63) (hn : n < 2 ^ 64) :
    (header c k t n).length = Id.headerLength ⟨c, t⟩ n := by
  simp [header, Id.headerLength, length_identifierOctets c k t ht, length_lengthOctets n hn]

theorem encodedTagLength_pos {t : Int} (h : 0 ≤ t) : 0 < encodedTagLength t := by
  unfold encodedTagLength
  repeat' split
  all_goals omega

theorem encodedLengthLength_pos (n : Nat) : 0 < encodedLengthLength n := by
  unfold encodedLengthLength
  repeat' split
  all_goals omega

theorem encodeHeader_fits (out : Bytes) (k : Construction) (c : Class) (t n : Nat)
    (ht : t < 2 ^ 63) (hn : n < 2 ^ 64) (h : (header c k t n).length ≤ out.length) :
    encodeHeader out k c (t : Int) n =
      ((header c k t n).length, header c k t n ++ out.drop (header c k t n).length) := by
  have hl := length_header c k t n ht hn
  have hp1 := encodedTagLength_pos (t := (t : Int)) (by omega)
  have hp2 := encodedLengthLength_pos n
  have hid := length_identifierOctets c k t ht
  have hll := length_lengthOctets n hn
  simp only [Id.headerLength] at hl
  unfold encodeHeader
  rw [if_neg (by omega)]
  rw [encodeIdentifier_nonneg out k c t (by omega)]
  simp only [List.drop_left']
  rw [encodeLength_fits _ n hn (by simp; omega)]
  simp only [List.take_left', header, List.length_append]
  rw [if_neg (by omega)]
  simp [hll, List.drop_drop]

theorem encodeHeader_short (out : Bytes) (k : Construction) (c : Class) (t n : Nat)
    (ht : t < 2 ^ 63) (h : out.length < Id.headerLength ⟨c, t⟩ n) :
    (encodeHeader out k c (t : Int) n).1 = 0 := by
  have hid := length_identifierOctets c k t ht
  unfold encodeHeader
  split
  · rfl
  · simp only [Id.headerLength] at h
    by_cases hfit : (identifierOctets c k t).length ≤ out.length
    · rw [encodeIdentifier_nonneg out k c t hfit]
      simp only [List.drop_left']
      rw [encodeLength_short _ n (by simp; omega)]
      simp
    · have := encodeIdentifier_short out k c t (by omega)
      dsimp only
      rw [this]; simp

theorem length_encodeHeader (out : Bytes) (k : Construction) (c : Class) (t : Int) (n : Nat) :
    (encodeHeader out k c t n).2.length = out.length := by
  unfold encodeHeader
  split
  · rfl
  · have h1 := length_encodeIdentifier out k c t
    dsimp only
    split <;> simp [length_encodeLength, h1] <;> omega

end FastBer
