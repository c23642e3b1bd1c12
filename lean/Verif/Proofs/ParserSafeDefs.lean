import Verif.Proofs.ParserPositions
/-!
# Checking the states of the parser
-/
namespace FastBer.Parser
open FastBer

/-- The state behind symbol `x`. -/
def after (s x : Nat) : Option Nat :=
  if x < yyntokens then match nextDo s x with | .shift s' => some s' | _ => none else some (gotoState s x)

/-- The state behind the symbols `γ`. -/
def afterAll : Nat → List Nat → Option Nat
  | s, [] => some s
  | s, x :: γ => match after s x with | some s' => afterAll s' γ | none => none

/-- Rule `r` may be at position `d` in state `s`. -/
def atPosition (s r d : Nat) : Bool := if d = 0 then (startsOf s).contains r else (kernelOf s).contains (r, d)

/-- `s'` may stand on `s` with the symbol `x`: every position of `s'` comes from one of `s`. -/
def standsOn (s s' x : Nat) : Bool :=
  s' < 876 && entryNat yystos s' == x && (kernelOf s').all fun p => p.2 != 0 && atPosition s p.1 (p.2 - 1) && (rhsOf p.1)[p.2 - 1]? == some x

def weight (x : Nat) : Nat := if mayBeEmpty x then 0 else 16

def weightAll : List Nat → Nat
  | [] => 0
  | x :: γ => weight x + weightAll γ

/-- What the parser does in state `s` with token `t` is sound. -/
def doOk (s t : Nat) (d : Do) : Bool :=
  match d with
  | .shift s' => standsOn s s' t && (t != 0 || s' == yyfinal)
  | .reduce r => atPosition s r (rhsOf r).length && 2 ≤ r
  | .error => true

/-- Like `doOk s t (nextDo s t)`, given that the default action of the state is sound. -/
def tokenOk (s : Nat) (n : Int) (t : Nat) : Bool :=
  let n := n + t
  if n < 0 ∨ yylast < n ∨ entry yycheck n.toNat ≠ t then true
  else
    let n := entry yytable n.toNat
    if n ≤ 0 then if n = yytableNinf then true else doOk s t (.reduce (-n).toNat)
    else doOk s t (.shift n.toNat)

def tokensOk (s : Nat) : Bool :=
  doOk s 0 (defaultDo s) &&
  let n := entry yypact s
  if n = yypactNinf then true else (List.range yyntokens).all (tokenOk s n)

/-- A reduction to the symbol `x` is sound on state `s`. -/
def gotoOk (s x : Nat) : Bool := yyntokens ≤ x && standsOn s (gotoState s x) x

/-- Rule `r`, if it may be started on state `s`, makes the weight fall. -/
def ruleOk (s r x : Nat) : Bool :=
  let n := weightAll (rhsOf r)
  yyntokens ≤ x && entryNat yyr2 r == (rhsOf r).length &&
  (weight x + 15 < n ||
   match afterAll s (rhsOf r) with
   | none => true
   | some q => weight x + rankOf (gotoState s x) < n + rankOf q)

/-- The rules that may be started on state `s`; `p` is the symbol checked last. -/
def startsOk (s : Nat) : Nat → List Nat → Bool
  | _, [] => true
  | p, r :: rs =>
    if r < 2 then startsOk s p rs
    else
      let x := entryNat yyr1 r
      (x == p || gotoOk s x) && ruleOk s r x && startsOk s x rs

def stateSafe (s : Nat) : Bool := (s == yyfinal || tokensOk s) && startsOk s 0 (startsOf s)

end FastBer.Parser
