import Verif.Props.Real
import Verif.Proofs.RealDecimal
/-! # Property C86: REAL in decimal form

`round neg m e` is the double that abseil makes of (-1)^neg · m · 10^e; the theorems hold for every such function. -/
namespace FastBer.Props
open FastBer Spec

theorem decimal_branch {b : UInt8} (hb : b.toNat < 64) : (b &&& 0x80) = 0 ∧ (b &&& 0xC0) = 0 := by
  have key : ∀ b : UInt8, b.toNat < 64 → (b &&& 0x80) = 0 ∧ (b &&& 0xC0) = 0 := forall_byte (by decide +kernel)
  exact key b hb

theorem decodeReal_decimal (round : Bool → Nat → Int → UInt64) {b : UInt8} (hb : b.toNat < 64) (s : Bytes) :
    decodeReal round (b :: s) = decodeRealDecimal round (b :: s) := by
  obtain ⟨h1, h2⟩ := decimal_branch hb
  rw [decodeReal, if_neg (by simp), at_cons_zero, Exec.ok_bind, if_neg (by rw [h1]; decide), if_pos h2]

/-- C86, full statement: contents octets in decimal form (X.690 8.5.8: bits 8 and 7 of the first octet are 0) are taken for a number
exactly when the first octet names the ISO 6093 form NR1, NR2 or NR3 and the other octets are a number in that form; the value is
then that number. -/
def C86_statement : Prop :=
  ∀ (round : Bool → Nat → Int → UInt64) (b : UInt8) (s : Bytes), b.toNat < 64 →
    (∀ neg m e, Iso6093 b.toNat s neg m e → decodeReal round (b :: s) = .ok (some (round neg m e))) ∧
    ((¬ ∃ neg m e, Iso6093 b.toNat s neg m e) → decodeReal round (b :: s) = .ok none)

/-- C86: a number in ISO 6093 form is read as the number it denotes, whatever the first octet says about the form. -/
theorem C86_decode (round : Bool → Nat → Int → UInt64) (b : UInt8) (hb : b.toNat < 64) (form : Nat) (s : Bytes) (neg : Bool) (m : Nat)
    (e : Int) (h : Iso6093 form s neg m e) : decodeReal round (b :: s) = .ok (some (round neg m e)) := by
  rw [decodeReal_decimal round hb]
  have hne : ¬ (b :: s).length ≤ 1 := by
    simp only [List.length_cons]
    intro hl
    have h0 : s = [] := List.length_eq_zero_iff.mp (by omega)
    subst h0
    have key : ∀ t : Bytes, Iso6093 form t neg m e → t ≠ [] := by
      intro t ht
      cases ht with
      | nr1 _ _ _ h4 => simp [h4]
      | nr2 => simp
      | nr3 => simp
    exact key _ h rfl
  rw [decodeRealDecimal, if_neg hne]
  have hs : simpleAtod round (s.map fun b => if b = 0x2C then (0x2E : UInt8) else b) = some (round neg m e) := simpleAtod_iso round h
  have hrun : (rxNr1.run s || rxNr2.run s || rxNr3.run s) = true := by
    have : (form = 1 ∨ form = 2) ∨ form = 3 := by cases h <;> simp
    rcases this with (rfl | rfl) | rfl
    · rw [rxNr1_iff.mpr ⟨_, _, _, h⟩]; rfl
    · rw [rxNr2_iff.mpr ⟨_, _, _, h⟩]; simp
    · rw [rxNr3_iff.mpr ⟨_, _, _, h⟩]; simp
  simp only [List.drop_succ_cons, List.drop_zero, hrun, if_true, hs]

/-- C86: text that is no ISO 6093 number is refused (`value()` is then 0.0). -/
theorem C86_refuses (round : Bool → Nat → Int → UInt64) (b : UInt8) (hb : b.toNat < 64) (s : Bytes) (hs : s ≠ [])
    (h : ¬ ∃ form neg m e, Iso6093 form s neg m e) : decodeReal round (b :: s) = .ok none := by
  rw [decodeReal_decimal round hb]
  have hne : ¬ (b :: s).length ≤ 1 := by
    simp only [List.length_cons]
    intro hl
    exact hs (List.length_eq_zero_iff.mp (by omega))
  have hno : ∀ form, ¬ ∃ neg m e, Iso6093 form s neg m e := fun form h' => h ⟨form, h'⟩
  rw [decodeRealDecimal, if_neg hne]
  have h1 : rxNr1.run s = false := Bool.eq_false_iff.mpr fun hr => hno 1 (rxNr1_iff.mp hr)
  have h2 : rxNr2.run s = false := Bool.eq_false_iff.mpr fun hr => hno 2 (rxNr2_iff.mp hr)
  have h3 : rxNr3.run s = false := Bool.eq_false_iff.mpr fun hr => hno 3 (rxNr3_iff.mp hr)
  simp only [List.drop_succ_cons, List.drop_zero, h1, h2, h3, Bool.or_self, Bool.false_eq_true, if_false]

/-- C86: the two cases above and a lone form octet are all there is. -/
theorem C86_accepts_iff_partial (round : Bool → Nat → Int → UInt64) (b : UInt8) (hb : b.toNat < 64) (s : Bytes) (d : UInt64) :
    decodeReal round (b :: s) = .ok (some d) ↔ ∃ form neg m e, Iso6093 form s neg m e ∧ d = round neg m e := by
  constructor
  · intro h
    by_cases hex : ∃ form neg m e, Iso6093 form s neg m e
    · obtain ⟨form, neg, m, e, hx⟩ := hex
      rw [C86_decode round b hb form s neg m e hx] at h
      cases h
      exact ⟨form, neg, m, e, hx, rfl⟩
    · by_cases hs : s = []
      · subst hs
        rw [decodeReal_decimal round hb, decodeRealDecimal, if_pos (by simp)] at h
        cases h
      · rw [C86_refuses round b hb s hs hex] at h
        cases h
  · rintro ⟨form, neg, m, e, hx, rfl⟩
    exact C86_decode round b hb form s neg m e hx

/-- C86: a text denotes at most one number, so the value is determined by the contents. -/
theorem C86_unambiguous (form form' : Nat) (s : Bytes) (neg neg' : Bool) (m m' : Nat) (e e' : Int)
    (h : Iso6093 form s neg m e) (h' : Iso6093 form' s neg' m' e') : neg = neg' ∧ m = m' ∧ e = e' := by
  have h1 := simpleAtod_iso (fun a b c => if a = neg ∧ b = m ∧ c = e then 1 else 0) h
  have h2 := simpleAtod_iso (fun a b c => if a = neg ∧ b = m ∧ c = e then 1 else 0) h'
  rw [h1] at h2
  simp only [and_self, if_true, Option.some.injEq] at h2
  split at h2
  · rename_i hh; exact ⟨hh.1.symm, hh.2.1.symm, hh.2.2.symm⟩
  · simp at h2

/-- C86, on an object whose contents are `b :: s`: `value()` is the number, or 0.0 if there is none. -/
theorem C86_value (round : Bool → Nat → Int → UInt64) (id : Ident) (d : Bytes) (b : UInt8) (hb : b.toNat < 64) (s : Bytes)
    (hc : Small.content id d = .ok (b :: s)) :
    (∀ form neg m e, Iso6093 form s neg m e → Real.value round id d = .ok (round neg m e)) ∧
    (s ≠ [] → (¬ ∃ form neg m e, Iso6093 form s neg m e) → Real.value round id d = .ok 0) := by
  refine ⟨fun form neg m e h => ?_, fun hs h => ?_⟩
  · rw [Real.value, hc, Exec.ok_bind, C86_decode round b hb form s neg m e h]; rfl
  · rw [Real.value, hc, Exec.ok_bind, C86_refuses round b hb s hs h]; rfl

/-- " -1,5E+3": minus 15 · 10^2. -/
theorem minusFifteenHundred : Iso6093 3 [0x20, 0x2D, 0x31, 0x2C, 0x35, 0x45, 0x2B, 0x33] true 15 2 :=
  Iso6093.nr3 (sp := [0x20]) (sg := [0x2D]) (i := [0x31]) (f := [0x35]) (sx := [0x2B]) (x := [0x33]) (mark := 0x2C) (ex := 0x45) (nx := false)
    (by simp) .minus (by simp [Digits]) (.inr rfl) (by simp [Digits]) (by simp) (.inl rfl) .plus (by simp [Digits]) (by simp)

/-- The contents `03 " -1,5E+3"` are read as -15 · 10^2. -/
example : decodeReal (fun neg m e => if neg ∧ m = 15 ∧ e = 2 then 0xC097700000000000 else 0)
    [3, 0x20, 0x2D, 0x31, 0x2C, 0x35, 0x45, 0x2B, 0x33] = .ok (some 0xC097700000000000) :=
  C86_decode _ 3 (by decide) 3 _ true 15 2 minusFifteenHundred

/-- "1.5 " is refused: a space after the number. -/
example : decodeReal (fun _ _ _ => 1) [2, 0x31, 0x2E, 0x35, 0x20] = .ok none := by decide +kernel

/-- An object meets the hypothesis of `C86_value`. -/
example : Small.content (.single ⟨.universal, 9⟩) ([9, 2, 1, 0x37] ++ List.replicate 100 0) = .ok [1, 0x37] := by decide +kernel

/-- C86 is false: the first octet is not compared with the number. `01 "1.5"`, `00 "7"` and `3F "7"`: NR1 cannot have a decimal mark,
and the other two are reserved. -/
theorem C86_violated_form : (∀ round : Bool → Nat → Int → UInt64, decodeReal round [1, 0x31, 0x2E, 0x35] = .ok (some (round false 15 (-1))) ∧
      decodeReal round [0, 0x37] = .ok (some (round false 7 0)) ∧ decodeReal round [0x3F, 0x37] = .ok (some (round false 7 0))) ∧
    (¬ ∃ neg m e, Iso6093 1 [0x31, 0x2E, 0x35] neg m e) ∧ (¬ ∃ neg m e, Iso6093 0 [0x37] neg m e) := by
  have h7 : Iso6093 1 [0x37] false 7 0 := Iso6093.nr1 (sp := []) (sg := []) (i := [0x37]) (by simp) .none (by simp [Digits]) (by simp)
  have h15 : Iso6093 2 [0x31, 0x2E, 0x35] false 15 (-1) :=
    Iso6093.nr2 (sp := []) (sg := []) (i := [0x31]) (f := [0x35]) (mark := 0x2E) (by simp) .none (by simp [Digits]) (.inl rfl)
      (by simp [Digits]) (by simp)
  refine ⟨fun round => ⟨C86_decode round 1 (by decide) 2 _ _ _ _ h15, C86_decode round 0 (by decide) 1 _ _ _ _ h7,
    C86_decode round 0x3F (by decide) 1 _ _ _ _ h7⟩, ?_, ?_⟩
  · intro h
    have := rxNr1_iff.mpr h
    revert this; decide +kernel
  · rintro ⟨neg, m, e, h⟩
    generalize hk : 0 = k at h
    generalize [(0x37 : UInt8)] = t at h
    cases h <;> omega

theorem C86_violated : ¬ C86_statement := by
  intro h
  obtain ⟨h1, h2, _⟩ := C86_violated_form
  have h3 := (h (fun _ _ _ => 0) 1 [0x31, 0x2E, 0x35] (by decide)).2 h2
  rw [(h1 _).1] at h3
  cases h3

/-- C86: a lone decimal form octet reads outside the contents. -/
theorem C86_violated_empty (round : Bool → Nat → Int → UInt64) (b : UInt8) (hb : b.toNat < 64) : decodeReal round [b] = .ub := by
  rw [decodeReal_decimal round hb]; rfl

end FastBer.Props
