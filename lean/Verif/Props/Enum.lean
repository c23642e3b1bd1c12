import Verif.Props.Parser
import Verif.Proofs.Enum
/-!
# C95: numbers of ENUMERATED items
-/
namespace FastBer.Props
open FastBer Ast Lexer Notation Parser

/-- **C95.** X.680 20.3-20.6 leave no choice for the numbers of the items. -/
theorem C95_unique {root added : List Enum.Spec.Item} {vs ws vs' ws' : List Int} (h : Enum.Spec.Numbers root added vs ws) (h' : Enum.Spec.Numbers root added vs' ws') :
    vs = vs' ∧ ws = ws' := Enum.numbers_unique h h'

/-- **C95.** If no item without a number comes behind one with a number, and no number of a root item is the position of a root item without one, the C++ enumeration written for the items
read from an ENUMERATED type has constants with the names of the items, in order, and the numbers of X.680.  The C++ compiler accepts it if the names are distinct, the numbers fit into `int`
and there are not more than 2^31 items.
Missing, because it is false: items without a number behind ones with a number (`C95_violated_*`). -/
theorem C95_numbers_partial {stod : Bytes → UInt64} {w : List Tok} {root added : List (Name × Option Int)} (h : EnumN w root added) (st : St)
    (front : ∀ (i j : Nat) n, i < j → (root ++ added)[j]? = some (n, none) → ∃ m, (root ++ added)[i]? = some (m, none))
    (free : ∀ (j : Nat) n, root[j]? = some (n, none) → ∀ item ∈ root, item.2 ≠ some (j : Int)) :
    ∃ items ext, Derives stod Sym.EnumeratedType (kw "ENUMERATED" :: kw "{" :: (w ++ [kw "}"])) st (.enums items ext) st ∧
      (∀ cs, Enum.constants items = some cs → cs.map (·.1) = (root ++ added).map (·.1) ∧
        Enum.Spec.Numbers root added ((cs.map (·.2)).take root.length) ((cs.map (·.2)).drop root.length)) ∧
      (((root ++ added).map (·.1)).Nodup → (∀ item ∈ root ++ added, ∀ v, item.2 = some v → -2147483648 ≤ v ∧ v ≤ 2147483647) → (root ++ added).length ≤ 2147483648 →
        ∃ cs, Enum.constants items = some cs) := by
  obtain ⟨ext, hd⟩ := C92_enumerated (stod := stod) h st
  refine ⟨root ++ added, ext, hd, fun cs hc => Enum.constants_numbers hc front free, fun hn hv hl => ?_⟩
  unfold Enum.constants
  rw [Enum.lines_eq]
  exact Option.isSome_iff_exists.1 (Enum.enumerators_front (by omega) (by omega) hn hv front)

/-- **C95.** All items numbered: the constants have those numbers. -/
theorem C95_numbered {items : List (Name × Option Int)} {cs : List (Name × Int)} (hc : Enum.constants items = some cs) {i : Nat} {n : Name} {v : Int}
    (h : items[i]? = some (n, some v)) : cs[i]? = some (n, v) := by
  unfold Enum.constants at hc
  rw [Enum.lines_eq] at hc
  exact Enum.enumerators_numbered hc h

/-- **C95, violated.** An item behind a number: `{ a(v), b }` with `v ≥ 1` gives `b` the number `v + 1` (X.680 20.3: 0). -/
theorem C95_violated_after_number {a b : Name} (hab : a ≠ b) {v : Int} (h1 : 1 ≤ v) (h2 : v < 2147483647) :
    Enum.constants [(a, some v), (b, none)] = some [(a, v), (b, v + 1)] ∧ Enum.Spec.Numbers [(a, some v), (b, none)] [] [v, 0] [] := by
  constructor
  · simp only [Enum.constants, Enum.lines, List.map_cons, List.map_nil, Enum.enumerators, Option.getD_some, Option.getD_none]
    rw [if_pos (by omega), if_pos (by omega)]
    have : (b == a) = false := by simpa using fun h => hab h.symm
    simp [this]
  · refine ⟨rfl, rfl, fun i x hx => ?_, fun i x hx => by simp at hx⟩
    match i with
    | 0 => simp at hx; subst hx; rfl
    | 1 =>
      simp at hx; subst hx
      refine ⟨by omega, by simp; omega, fun u => ⟨fun ⟨h0, h3, _⟩ => by omega, ?_⟩⟩
      rintro ⟨j, n, hj, hn, _⟩
      obtain rfl : j = 0 := by omega
      simp at hn
    | i + 2 => simp at hx

/-- **C95, violated.** An item in front of the number it would have: `{ a, b(0) }` gives both the number 0, so they cannot be told apart (X.680 20.3: `a` is 1). -/
theorem C95_violated_same_number {a b : Name} (hab : a ≠ b) :
    Enum.constants [(a, none), (b, some 0)] = some [(a, 0), (b, 0)] ∧ Enum.Spec.Numbers [(a, none), (b, some 0)] [] [1, 0] [] := by
  constructor
  · have : (b == a) = false := by simpa using fun h => hab h.symm
    simp [Enum.constants, Enum.lines, Enum.enumerators, this]
  · refine ⟨rfl, rfl, fun i x hx => ?_, fun i x hx => by simp at hx⟩
    match i with
    | 0 =>
      simp at hx; subst hx
      refine ⟨by omega, by simp, fun u => ⟨fun ⟨h0, h3, h4⟩ => ?_, fun ⟨j, n, hj, _⟩ => by omega⟩⟩
      obtain rfl : u = 0 := by omega
      exact absurd rfl (h4 (b, some 0) (by simp))
    | 1 => simp at hx; subst hx; rfl
    | i + 2 => simp at hx

/-- **C95, violated.** An additional item: `{ a, z(25), ..., d }`, the example E of X.680 20.6, gives `d` the number 26 (X.680: 1). -/
theorem C95_violated_additional : Enum.constants [("a", none), ("z", some 25), ("d", none)] = some [("a", 0), ("z", 25), ("d", 26)] ∧
    Enum.Spec.Numbers [("a", none), ("z", some 25)] [("d", none)] [0, 25] [1] := by
  refine ⟨by decide, ⟨rfl, rfl, fun i x hx => ?_, fun i x hx => ?_⟩⟩
  · match i with
    | 0 =>
      simp at hx; subst hx
      exact ⟨by omega, by simp, fun u => ⟨fun ⟨h0, h3, _⟩ => by omega, fun ⟨j, n, hj, _⟩ => by omega⟩⟩
    | 1 => simp at hx; subst hx; rfl
    | i + 2 => simp at hx
  · match i with
    | 0 =>
      simp at hx; subst hx
      refine ⟨by omega, by simp, fun j hj => by omega, fun w h0 h1 _ => ?_⟩
      simp only [List.mem_cons, List.not_mem_nil, or_false, not_or] at h1
      omega
    | i + 1 => simp at hx

/-- **C95, violated.** A number given by a reference is read as 0 (X.680 20.1: it is the value referred to). -/
theorem C95_violated_reference {stod : Bytes → UInt64} (n r : List Char) (st : St) :
    Derives stod Sym.EnumeratedType [kw "ENUMERATED", kw "{", .lower n, kw "(", .lower r, kw ")", kw "}"] st (.enums [(nm n, some 0)] false) st :=
  by_EnumeratedType_1 (by_Enumerations_1 (by_Enumeration_1 (by_EnumerationItem_2 (by_NamedNumber_2 (read_identifier n) (read_defined r))))) st

/-- `ENUMERATED { a, b, ..., c(7), d(9) }` -/
theorem enum_sample : EnumN [.lower ['a'], kw ",", .lower ['b'], kw ",", kw "...", kw ",", .lower ['c'], kw "(", .number 7, kw ")", kw ",", .lower ['d'], kw "(", .number 9, kw ")"]
    [("a", none), ("b", none)] [("c", some 7), ("d", some 9)] :=
  .extended (.more (.one (.plain ['a'])) (.plain ['b'])) (.more (.one (.numbered ['c'] (.number 7))) (.numbered ['d'] (.number 9)))

example : Enum.constants [("a", none), ("b", none), ("c", some 7), ("d", some 9)] = some [("a", 0), ("b", 1), ("c", 7), ("d", 9)] := by decide

/-- It meets the conditions of `C95_numbers_partial`. -/
example : (∀ (i j : Nat) n, i < j → ([("a", none), ("b", none)] ++ [("c", some 7), ("d", some 9)] : List (Name × Option Int))[j]? = some (n, none) →
      ∃ m, ([("a", none), ("b", none)] ++ [("c", some 7), ("d", some 9)] : List (Name × Option Int))[i]? = some (m, none)) ∧
    ∀ (j : Nat) n, ([("a", none), ("b", none)] : List (Name × Option Int))[j]? = some (n, none) → ∀ item ∈ ([("a", none), ("b", none)] : List (Name × Option Int)), item.2 ≠ some (j : Int) := by
  refine ⟨fun i j n hij hj => ?_, fun j n _ item hi => by simp at hi; rcases hi with rfl | rfl <;> simp⟩
  match j with
  | 0 => omega
  | 1 => exact ⟨"a", by obtain rfl : i = 0 := by omega
                        rfl⟩
  | 2 => simp at hj
  | 3 => simp at hj
  | j + 4 => simp at hj

end FastBer.Props
