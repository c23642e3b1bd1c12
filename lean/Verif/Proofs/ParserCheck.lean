import Verif.Proofs.ParserStates
/-!
# Checking the items

`stateOk s`: the items of state `s` are closed (a position before a nonterminal has the items of its rules), every position leads to a state with the
next position, and a finished rule is reduced for every terminal that may follow.
-/
namespace FastBer.Parser
open FastBer

/-- `a` ⊆ `b` for bit masks. -/
def submask (a b : Nat) : Bool := a &&& b == a

/-- Terminals that may start `γ` followed by one of `l`. -/
def firstSeq : List Nat → Nat → Nat
  | [], l => l
  | x :: γ, l => if nullable x then firstOf x ||| firstSeq γ l else firstOf x

def nullableSeq : List Nat → Bool
  | [] => true
  | x :: γ => nullable x && nullableSeq γ

/-- The state after symbol `x`. -/
def transition (s x : Nat) : Nat :=
  if x < yyntokens then match nextDo s x with | .shift s' => s' | _ => 0 else gotoState s (baseSym x)

def hasItem (s i d l : Nat) : Bool := (itemsOf s).any fun it => it.1 == i && it.2.1 == d && submask l (laMask it.2.2)

def productionOk (i : Nat) : Bool :=
  match prod i with
  | none => false
  | some (x, r, γ) =>
    yyntokens ≤ x && (rulesOf x).contains i &&
    (i == 0 || (entryNat yyr1 r == baseSym x && entryNat yyr2 r == γ.length && submask (firstSeq γ 0) (firstOf x) && (!nullableSeq γ || nullable x)))

def itemOk (s : Nat) (it : Nat × Nat × Nat) : Bool :=
  match prod it.1 with
  | none => false
  | some (_, r, γ) =>
    let l := laMask it.2.2
    match γ.drop it.2.1 with
    | [] => it.1 == 0 || (s != yyfinal && (List.range yyntokens).all fun t => !l.testBit t || nextDo s t == .reduce r)
    | x :: β =>
      s != yyfinal && hasItem (transition s x) it.1 (it.2.1 + 1) l &&
      if x < yyntokens then nextDo s x == .shift (transition s x)
      else (rulesOf x).all fun j => hasItem s j 0 (firstSeq β l)

def stateOk (s : Nat) : Bool := (itemsOf s).all (itemOk s)

theorem productions_ok : (List.range prodCount).all productionOk = true := by decide +kernel
theorem states_ok_0 : (List.range' 0 150).all stateOk = true := by decide +kernel
theorem states_ok_1 : (List.range' 150 150).all stateOk = true := by decide +kernel
theorem states_ok_2 : (List.range' 300 150).all stateOk = true := by decide +kernel
theorem states_ok_3 : (List.range' 450 150).all stateOk = true := by decide +kernel
theorem states_ok_4 : (List.range' 600 150).all stateOk = true := by decide +kernel
theorem states_ok_5 : (List.range' 750 150).all stateOk = true := by decide +kernel

theorem states_ok (s : Nat) : stateOk s = true := by
  rcases Nat.lt_or_ge s 900 with h | h
  · have key : ∀ a, (List.range' a 150).all stateOk = true → a ≤ s → s < a + 150 → stateOk s = true := by
      intro a ha h1 h2
      refine List.all_eq_true.mp ha s ?_
      rw [List.mem_range'_1]; exact ⟨h1, h2⟩
    rcases Nat.lt_or_ge s 150 with h1 | h1
    · exact key _ states_ok_0 (by omega) (by omega)
    rcases Nat.lt_or_ge s 300 with h2 | h2
    · exact key _ states_ok_1 (by omega) (by omega)
    rcases Nat.lt_or_ge s 450 with h3 | h3
    · exact key _ states_ok_2 (by omega) (by omega)
    rcases Nat.lt_or_ge s 600 with h4 | h4
    · exact key _ states_ok_3 (by omega) (by omega)
    rcases Nat.lt_or_ge s 750 with h5 | h5
    · exact key _ states_ok_4 (by omega) (by omega)
    · exact key _ states_ok_5 (by omega) (by omega)
  · unfold stateOk itemsOf
    rw [if_neg (by omega)]
    rfl

theorem prod_bound {i : Nat} {p : Nat × Nat × List Nat} (h : prod i = some p) : i < prodCount := by
  unfold prod at h
  split at h
  · assumption
  · cases h

theorem prod_ok {i : Nat} {p : Nat × Nat × List Nat} (h : prod i = some p) : productionOk i = true :=
  List.all_eq_true.mp productions_ok i (List.mem_range.mpr (prod_bound h))

end FastBer.Parser
