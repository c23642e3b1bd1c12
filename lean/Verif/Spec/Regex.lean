import Verif.Model.Regex
/-! # The language of a regular expression -/
namespace FastBer

/-- What a regular expression matches. -/
inductive Rx.Lang : Rx → Bytes → Prop
  | eps : Lang .eps []
  | cls {p : UInt8 → Bool} {c : UInt8} : p c = true → Lang (.cls p) [c]
  | cat {a b : Rx} {s t : Bytes} : Lang a s → Lang b t → Lang (.cat a b) (s ++ t)
  | left {a b : Rx} {s : Bytes} : Lang a s → Lang (.alt a b) s
  | right {a b : Rx} {s : Bytes} : Lang b s → Lang (.alt a b) s
  | nil {a : Rx} : Lang (.star a) []
  | more {a : Rx} {s t : Bytes} : Lang a s → Lang (.star a) t → Lang (.star a) (s ++ t)

end FastBer
