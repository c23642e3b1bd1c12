import Verif.Model.RealDecimal
/-!
# ISO 6093 numbers

`Iso6093 form s neg m e`: the text `s` is a number in form NR`form`, and stands for (-1)^neg · m · 10^e.
-/
namespace FastBer.Spec
open FastBer

/-- Only digits. -/
def Digits (s : Bytes) : Prop := ∀ b ∈ s, 0x30 ≤ b.toNat ∧ b.toNat ≤ 0x39

/-- The number written by digits: the last digit has weight 1, the one before it 10, … -/
def decimal : Bytes → Nat
  | [] => 0
  | b :: s => (b.toNat - 0x30) * 10 ^ s.length + decimal s

/-- An optional sign. -/
inductive SignText : Bytes → Bool → Prop
  | none : SignText [] false
  | plus : SignText [0x2B] false
  | minus : SignText [0x2D] true

/-- NR1: an integer; NR2: with a decimal mark (a full stop or a comma); NR3: NR2 with an exponent. -/
inductive Iso6093 : Nat → Bytes → Bool → Nat → Int → Prop
  | nr1 {sp sg i : Bytes} {neg : Bool} (h1 : ∀ b ∈ sp, b = 0x20) (h2 : SignText sg neg) (h3 : Digits i) (h4 : i ≠ []) :
      Iso6093 1 (sp ++ (sg ++ i)) neg (decimal i) 0
  | nr2 {sp sg i f : Bytes} {neg : Bool} {mark : UInt8} (h1 : ∀ b ∈ sp, b = 0x20) (h2 : SignText sg neg) (h3 : Digits i)
      (h4 : mark = 0x2E ∨ mark = 0x2C) (h5 : Digits f) (h6 : i ++ f ≠ []) :
      Iso6093 2 (sp ++ (sg ++ (i ++ (mark :: f)))) neg (decimal (i ++ f)) (-(f.length : Int))
  | nr3 {sp sg i f sx x : Bytes} {neg nx : Bool} {mark ex : UInt8} (h1 : ∀ b ∈ sp, b = 0x20) (h2 : SignText sg neg)
      (h3 : Digits i) (h4 : mark = 0x2E ∨ mark = 0x2C) (h5 : Digits f) (h6 : i ++ f ≠ []) (h7 : ex = 0x45 ∨ ex = 0x65)
      (h8 : SignText sx nx) (h9 : Digits x) (h10 : x ≠ []) :
      Iso6093 3 (sp ++ (sg ++ (i ++ (mark :: (f ++ (ex :: (sx ++ x))))))) neg (decimal (i ++ f))
        ((if nx then -(decimal x : Int) else decimal x) - f.length)

end FastBer.Spec
