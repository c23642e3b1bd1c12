import Verif.Proofs.RealEq
import Verif.Props.Real
import Verif.Model.Schema
/-! # Property C83: comparing REALs -/
namespace FastBer.Props
open FastBer Spec

/-- C83, full statement: whatever the two objects hold, `a == b` says whether their values agree up to rounding. -/
def C83_statement : Prop :=
  ∀ (dec : Bool → Nat → Int → UInt64) (id : Ident) (a b : Bytes) (v w : UInt64),
    Real.value dec id a = .ok v → Real.value dec id b = .ok w →
      ∃ r, Real.equal dec id a b = .ok r ∧ (r = true ↔ (doubleVal v).Agree (doubleVal w))

theorem units_lt {d : UInt64} {s : Bool} {m : Nat} {k : Int} (h : doubleVal d = .finite s m k) :
    (RealVal.units (.finite s m k)).natAbs < 2 ^ 2098 := by
  obtain ⟨_, hm, hk, hk', _, _⟩ := doubleVal_finite h
  have h1 : (RealVal.units (.finite s m k)).natAbs = m * 2 ^ (k + 1074).toNat := by
    simp only [RealVal.units, Int.natAbs_mul, Int.natAbs_natCast]
    cases s <;> simp
  have h2 : 2 ^ (k + 1074).toNat ≤ 2 ^ 2045 := Nat.pow_le_pow_right (by omega) (by omega)
  have h3 : (2 : Nat) ^ 2098 = 2 ^ 53 * 2 ^ 2045 := by rw [← Nat.pow_add]
  rw [h1, h3]
  exact Nat.lt_of_le_of_lt (Nat.mul_le_mul_left m h2) (Nat.mul_lt_mul_of_pos_right hm (Nat.two_pow_pos _))

theorem dbl_equal (v w : UInt64) :
    (Dbl.ofBits v).equal (Dbl.ofBits w) = true ↔ (doubleVal v).ComparesEqual (doubleVal w) := by
  rw [ofBits_spec, ofBits_spec]
  cases hv : doubleVal v with
  | nan => exact ⟨fun h => (by cases h), fun h => h.elim⟩
  | inf s => cases hw : doubleVal w with
    | nan => exact ⟨fun h => (by cases h), fun h => h.elim⟩
    | inf t => simp only [Dbl.equal, RealVal.ComparesEqual, beq_iff_eq]
    | finite t m k => exact ⟨fun _ => trivial, fun _ => rfl⟩
  | finite s m k => cases hw : doubleVal w with
    | nan => exact ⟨fun h => (by cases h), fun h => h.elim⟩
    | inf t => exact ⟨fun _ => trivial, fun _ => rfl⟩
    | finite t m' k' =>
      rw [RealVal.ComparesEqual]
      exact equal_iff (fits53_of_val hv) (fits53_of_val hw) (units_lt hv) (units_lt hw)

/-- C83 (part): exactly what `==` decides, in terms of the values the two objects give for `value()`.  It is not the full statement: see
`C83_violated`. -/
theorem C83_equal_iff_partial (dec : Bool → Nat → Int → UInt64) (id : Ident) (a b : Bytes) (v w : UInt64)
    (ha : Real.value dec id a = .ok v) (hb : Real.value dec id b = .ok w) :
    ∃ r, Real.equal dec id a b = .ok r ∧ (r = true ↔ (doubleVal v).ComparesEqual (doubleVal w)) := by
  refine ⟨_, ?_, dbl_equal v w⟩
  unfold Real.equal
  rw [ha, hb]
  rfl

/-- `==` decides what the full statement asks for when neither object holds an infinity, or both do, and the larger number is 1 or more. -/
theorem C83_agrees_partial (dec : Bool → Nat → Int → UInt64) (id : Ident) (a b : Bytes) (v w : UInt64)
    (ha : Real.value dec id a = .ok v) (hb : Real.value dec id b = .ok w)
    (hinf : (∃ s, doubleVal v = .inf s) ↔ ∃ s, doubleVal w = .inf s)
    (hbig : 2 ^ 1074 ≤ max (doubleVal v).units.natAbs (doubleVal w).units.natAbs ∨ ∃ s, doubleVal v = .inf s) :
    ∃ r, Real.equal dec id a b = .ok r ∧ (r = true ↔ (doubleVal v).Agree (doubleVal w)) := by
  obtain ⟨r, h1, h2⟩ := C83_equal_iff_partial dec id a b v w ha hb
  refine ⟨r, h1, h2.trans ?_⟩
  revert hinf hbig
  cases hv : doubleVal v with
  | nan => intros; rfl
  | inf s => cases hw : doubleVal w with
    | nan => intros; rfl
    | inf t => intros; rfl
    | finite t m k =>
      intro h
      obtain ⟨_, h⟩ := h.1 ⟨_, rfl⟩
      cases h
  | finite s m k => cases hw : doubleVal w with
    | nan => intros; rfl
    | inf t =>
      intro h
      obtain ⟨_, h⟩ := h.2 ⟨_, rfl⟩
      cases h
    | finite t m' k' =>
      intro _ hbig
      rcases hbig with hbig | ⟨_, hbig⟩
      · unfold RealVal.ComparesEqual RealVal.Agree
        refine ⟨?_, .inr⟩
        rintro (h | h)
        · exact near_one (fits53_of_val hv) (fits53_of_val hw) hbig h
        · exact h
      · cases hbig

/-- An object that holds anything but NaN is equal to itself. -/
theorem C83_reflexive_partial (dec : Bool → Nat → Int → UInt64) (id : Ident) (a : Bytes) (v : UInt64) (ha : Real.value dec id a = .ok v) :
    Real.equal dec id a a = .ok true ↔ doubleVal v ≠ .nan := by
  obtain ⟨r, h1, h2⟩ := C83_equal_iff_partial dec id a a v v ha ha
  rw [h1, Exec.ok.injEq, h2]
  cases doubleVal v with
  | nan => exact ⟨fun h => h.elim, fun h => absurd rfl h⟩
  | inf s => exact ⟨fun _ h => (by cases h), fun _ => rfl⟩
  | finite s m k =>
    refine ⟨fun _ h => (by cases h), fun _ => .inr ?_⟩
    rw [Int.sub_self, Int.natAbs_zero, Nat.zero_mul]
    exact Nat.zero_le _

/-- NaN is equal to nothing. -/
theorem C83_nan (dec : Bool → Nat → Int → UInt64) (id : Ident) (a b : Bytes) (v w : UInt64)
    (ha : Real.value dec id a = .ok v) (hb : Real.value dec id b = .ok w) (h : doubleVal v = .nan ∨ doubleVal w = .nan) :
    Real.equal dec id a b = .ok false := by
  obtain ⟨r, h1, h2⟩ := C83_equal_iff_partial dec id a b v w ha hb
  rw [h1]
  cases r with
  | false => rfl
  | true =>
    have := h2.1 rfl
    rcases h with h | h <;> rw [h] at this
    · exact this.elim
    · cases hv : doubleVal v <;> rw [hv] at this <;> exact this.elim

/-- `==` is symmetric. -/
theorem C83_symmetric (dec : Bool → Nat → Int → UInt64) (id : Ident) (a b : Bytes) (v w : UInt64)
    (ha : Real.value dec id a = .ok v) (hb : Real.value dec id b = .ok w) :
    Real.equal dec id a b = Real.equal dec id b a := by
  unfold Real.equal
  rw [ha, hb]
  exact congrArg Exec.ok (equal_comm _ _)

theorem units_same {s s' : Bool} {m m' : Nat} {k k' : Int} (hk : -1074 ≤ k) (hk' : -1074 ≤ k')
    (h : m * 2 ^ (k - k').toNat = m' * 2 ^ (k' - k).toNat) (hs : s = s' ∨ m = 0) :
    RealVal.units (.finite s m k) = RealVal.units (.finite s' m' k') := by
  have h0 : m * 2 ^ (k + 1074).toNat = m' * 2 ^ (k' + 1074).toNat := by
    rcases Int.le_total k k' with h1 | h1
    · rw [show (k - k').toNat = 0 by omega] at h
      rw [show (k' + 1074).toNat = (k' - k).toNat + (k + 1074).toNat by omega, Nat.pow_add, ← Nat.mul_assoc, ← h, Nat.pow_zero,
        Nat.mul_one]
    · rw [show (k' - k).toNat = 0 by omega] at h
      rw [show (k + 1074).toNat = (k - k').toNat + (k' + 1074).toNat by omega, Nat.pow_add, ← Nat.mul_assoc, h, Nat.pow_zero,
        Nat.mul_one]
  simp only [RealVal.units]
  rcases hs with rfl | rfl
  · rw [h0]
  · rw [Nat.zero_mul] at h0
    rw [← h0, Nat.zero_mul]
    simp

/-- Objects that hold the same value are equal; +0 and -0 are equal. -/
theorem C83_same_value (dec : Bool → Nat → Int → UInt64) (id : Ident) (a b : Bytes) (v w : UInt64)
    (ha : Real.value dec id a = .ok v) (hb : Real.value dec id b = .ok w) (hnan : doubleVal v ≠ .nan)
    (h : (doubleVal v).Same (doubleVal w) ∨ ((∃ s k, doubleVal v = .finite s 0 k) ∧ ∃ s k, doubleVal w = .finite s 0 k)) :
    Real.equal dec id a b = .ok true := by
  obtain ⟨r, h1, h2⟩ := C83_equal_iff_partial dec id a b v w ha hb
  rw [h1, h2.2]
  rcases h with h | ⟨⟨s, k, hv⟩, s', k', hw⟩
  · cases hv : doubleVal v with
    | nan => exact absurd hv hnan
    | inf s =>
      rw [hv] at h
      cases hw : doubleVal w with
      | nan => rw [hw] at h; exact h.elim
      | finite => trivial
      | inf t => rw [hw] at h; exact h
    | finite s m k =>
      rw [hv] at h
      cases hw : doubleVal w with
      | nan => rw [hw] at h; exact h.elim
      | inf t => trivial
      | finite s' m' k' =>
        rw [hw] at h
        obtain ⟨hs, hm⟩ := h
        obtain ⟨_, _, hk, _⟩ := doubleVal_finite hv
        obtain ⟨_, _, hk', _⟩ := doubleVal_finite hw
        right
        rw [units_same hk hk' hm (.inl hs), Int.sub_self, Int.natAbs_zero, Nat.zero_mul]
        exact Nat.zero_le _
  · rw [hv, hw]
    right
    rw [show RealVal.units (.finite s 0 k) = 0 by simp [RealVal.units], show RealVal.units (.finite s' 0 k') = 0 by simp [RealVal.units]]
    decide

/-- Numbers are told apart when they differ by more than one part in 2^52 and by more than 2^-51. -/
theorem C83_distinguishes (dec : Bool → Nat → Int → UInt64) (id : Ident) (a b : Bytes) (v w : UInt64)
    (ha : Real.value dec id a = .ok v) (hb : Real.value dec id b = .ok w)
    (s s' : Bool) (m m' : Nat) (k k' : Int) (hv : doubleVal v = .finite s m k) (hw : doubleVal w = .finite s' m' k')
    (habs : 2 ^ 1023 < ((doubleVal v).units - (doubleVal w).units).natAbs) (hrel : ¬ (doubleVal v).Agree (doubleVal w)) :
    Real.equal dec id a b = .ok false := by
  obtain ⟨r, h1, h2⟩ := C83_equal_iff_partial dec id a b v w ha hb
  rw [h1]
  cases r with
  | false => rfl
  | true =>
    have := h2.1 rfl
    rw [hv, hw] at this hrel habs
    rcases this with h | h
    · have hA : (2 : Nat) ^ 1023 = 2 * 2 ^ 1022 := pow_double rfl
      have hC : (2 : Nat) ^ 969 < 2 ^ 1022 := Nat.pow_lt_pow_right (by omega) (by omega)
      generalize (2 : Nat) ^ 1022 = P at *
      generalize (2 : Nat) ^ 969 = S at *
      omega
    · exact absurd h hrel

/-- The object a double is assigned to. -/
def realOf (v : UInt64) : Exec Bytes := Real.assign (.single ⟨.universal, 9⟩) (Real.default (.single ⟨.universal, 9⟩)) v

/-- `Real(v) == Real(w)`. -/
def realsEqual (v w : UInt64) : Exec Bool := do
  let a ← realOf v
  let b ← realOf w
  Real.equal (fun _ _ _ => 0) (.single ⟨.universal, 9⟩) a b

/-- Two objects that doubles have been assigned to, of a magnitude the decoder reads back (C28): whatever the objects held before, `==`
compares the doubles. -/
theorem C83_assigned_partial (dec : Bool → Nat → Int → UInt64) (id : Ident) (hid : identOk id) (c c' d d' : Bytes)
    (hd : SmallWf id 100 c d) (hd' : SmallWf id 100 c' d') (v w : UInt64)
    (hv : (∃ b, doubleVal v = .inf b) ∨ (expField v = 0 ∧ fraction v = 0) ∨ (947 ≤ expField v ∧ expField v ≤ 1202))
    (hw : (∃ b, doubleVal w = .inf b) ∨ (expField w = 0 ∧ fraction w = 0) ∨ (947 ≤ expField w ∧ expField w ≤ 1202)) :
    ∃ a b r, Real.assign id d v = .ok a ∧ Real.assign id d' w = .ok b ∧ Real.equal dec id a b = .ok r ∧
      (r = true ↔ (doubleVal v).ComparesEqual (doubleVal w)) := by
  obtain ⟨_, a, _, h1, _, _, _, _, h2⟩ := C28_object_partial dec id hid c d hd v
  obtain ⟨_, b, _, h3, _, _, _, _, h4⟩ := C28_object_partial dec id hid c' d' hd' w
  obtain ⟨r, h5, h6⟩ := C83_equal_iff_partial dec id a b v w (h2 hv) (h4 hw)
  exact ⟨a, b, r, h1, h3, h5, h6⟩

/-- Inside a generated type the same comparison is used. -/
theorem C83_member (dec : Bool → Nat → Int → UInt64) (id : Ident) (a b : Bytes) (v w : UInt64)
    (ha : Real.value dec id a = .ok v) (hb : Real.value dec id b = .ok w) :
    (realCodec (realCmp dec) id).eq (.raw a) (.raw b) = Real.equal dec id a b := by
  have split : ∀ {x : Bytes} {v : UInt64}, Real.value dec id x = .ok v → ∃ c r, Small.content id x = .ok c ∧ decodeReal dec c = .ok r := by
    intro x v h
    unfold Real.value at h
    cases hc : Small.content id x with
    | ok c =>
      rw [hc] at h
      cases hr : decodeReal dec c with
      | ok r => exact ⟨c, r, rfl, hr⟩
      | ub =>
        replace h : (decodeReal dec c >>= fun r => Exec.ok (r.getD 0)) = .ok v := h
        rw [hr] at h; cases h
      | loop =>
        replace h : (decodeReal dec c >>= fun r => Exec.ok (r.getD 0)) = .ok v := h
        rw [hr] at h; cases h
    | ub => rw [hc] at h; cases h
    | loop => rw [hc] at h; cases h
  obtain ⟨c, r, h1, h2⟩ := split ha
  obtain ⟨c', r', h3, h4⟩ := split hb
  show (do let x ← Small.content id a; let y ← Small.content id b; realCmp dec x y) = _
  unfold Real.equal Real.value realCmp
  rw [h1, h3]
  show (do let l ← decodeReal dec c; let r ← decodeReal dec c'; Exec.ok ((Dbl.ofBits (l.getD 0)).equal (.ofBits (r.getD 0)))) =
    (do let l ← (do let r ← decodeReal dec c; Exec.ok (r.getD 0)); let r ← (do let r ← decodeReal dec c'; Exec.ok (r.getD 0))
        Exec.ok ((Dbl.ofBits l).equal (.ofBits r)))
  rw [h2, h4]
  rfl

/-- Infinity is equal to every number, whatever objects hold them. -/
theorem C83_violated_infinity (dec : Bool → Nat → Int → UInt64) (id : Ident) (a b : Bytes) (v w : UInt64)
    (ha : Real.value dec id a = .ok v) (hb : Real.value dec id b = .ok w) (s s' : Bool) (m : Nat) (k : Int)
    (hv : doubleVal v = .inf s) (hw : doubleVal w = .finite s' m k) : Real.equal dec id a b = .ok true := by
  obtain ⟨r, h1, h2⟩ := C83_equal_iff_partial dec id a b v w ha hb
  rw [h1, h2.2]
  rw [hv, hw]
  trivial

/-- Two numbers below 2^-53 are equal, whatever their ratio and their signs. -/
theorem C83_violated_small (dec : Bool → Nat → Int → UInt64) (id : Ident) (a b : Bytes) (v w : UInt64)
    (ha : Real.value dec id a = .ok v) (hb : Real.value dec id b = .ok w) (s s' : Bool) (m m' : Nat) (k k' : Int)
    (hv : doubleVal v = .finite s m k) (hw : doubleVal w = .finite s' m' k')
    (h1 : (doubleVal v).units.natAbs ≤ 2 ^ 1021) (h2 : (doubleVal w).units.natAbs ≤ 2 ^ 1021) : Real.equal dec id a b = .ok true := by
  obtain ⟨r, h3, h4⟩ := C83_equal_iff_partial dec id a b v w ha hb
  rw [h3, h4.2]
  rw [hv] at h1 ⊢
  rw [hw] at h2 ⊢
  left
  have hA : (2 : Nat) ^ 1022 = 2 * 2 ^ 1021 := pow_double rfl
  generalize (2 : Nat) ^ 1022 = P at *
  generalize (2 : Nat) ^ 1021 = Q at *
  generalize (2 : Nat) ^ 969 = S at *
  omega

/-- `==` is not transitive: 0, 2^-52 and 2^-51. -/
theorem C83_violated_transitive :
    realsEqual 0 0x3CB0000000000000 = .ok true ∧ realsEqual 0x3CB0000000000000 0x3CC0000000000000 = .ok true ∧
    realsEqual 0 0x3CC0000000000000 = .ok false := by decide +kernel

/-- C83 is false: +infinity == 1.0. -/
theorem C83_violated : ¬ C83_statement := by
  intro h
  have e : ∃ a b, realOf 0x7FF0000000000000 = .ok a ∧ realOf 0x3FF0000000000000 = .ok b ∧
      Real.value (fun _ _ _ => 0) (.single ⟨.universal, 9⟩) a = .ok 0x7FF0000000000000 ∧
      Real.value (fun _ _ _ => 0) (.single ⟨.universal, 9⟩) b = .ok 0x3FF0000000000000 := by
    obtain ⟨_, a, _, h1, _, _, _, _, h2⟩ := C28_object_partial (fun _ _ _ => 0) (.single ⟨.universal, 9⟩) (by simp [identOk, idOk]) _ _
      (SmallWf.init (by simp [identOk, idOk]) 100) 0x7FF0000000000000
    obtain ⟨_, b, _, h3, _, _, _, _, h4⟩ := C28_object_partial (fun _ _ _ => 0) (.single ⟨.universal, 9⟩) (by simp [identOk, idOk]) _ _
      (SmallWf.init (by simp [identOk, idOk]) 100) 0x3FF0000000000000
    exact ⟨a, b, h1, h3, h2 (.inl ⟨false, by decide⟩), h4 (.inr (.inr (by decide)))⟩
  obtain ⟨a, b, _, _, ha, hb⟩ := e
  obtain ⟨r, h1, h2⟩ := h _ _ a b _ _ ha hb
  rw [C83_violated_infinity _ _ a b _ _ ha hb false false (2 ^ 52) (-52) (by decide) (by decide)] at h1
  cases h1
  have h3 := h2.1 rfl
  rw [show doubleVal 0x7FF0000000000000 = .inf false by decide, show doubleVal 0x3FF0000000000000 = .finite false (2 ^ 52) (-52) by decide] at h3
  exact h3

/-! Concrete cases: 1.5 against itself, against the next double, against the one after; 1.0 against infinity; NaN. -/
example : realsEqual 0x3FF8000000000000 0x3FF8000000000000 = .ok true ∧ realsEqual 0x3FF8000000000000 0x3FF8000000000001 = .ok true ∧
    realsEqual 0x3FF8000000000000 0x3FF8000000000002 = .ok false := by decide +kernel
example : realsEqual 0x3FF0000000000000 0x7FF0000000000000 = .ok true ∧ realsEqual 0x7FF0000000000000 0xFFF0000000000000 = .ok false ∧
    realsEqual 0x7FF8000000000000 0x7FF8000000000000 = .ok false := by decide +kernel
example : realsEqual 0x8000000000000000 0 = .ok true := by decide +kernel

end FastBer.Props
