import Verif.Model.Variant
/-!
# Specification of DynamicVariant and DynamicOptional: values, no memory

`Variant.spec` says what each operation does to the values the variables hold; it knows neither heap nor pointers.  `none`
means that the operation is outside the precondition under which the library is expected to work here.
-/
namespace FastBer

namespace Variant
variable {V : Type}

/-- What a variable holds: an alternative with its value, or nothing.  A moved-from variable still has the index it had
(`hollow (some i)`); `hollow none` is a variant that is valueless by exception. -/
inductive Value (V : Type) where
  | holds (i : Nat) (v : V)
  | hollow (index : Option Nat)
  deriving DecidableEq

/-- `index()`. -/
def Value.index : Value V → Option Nat
  | .holds i _ => some i
  | .hollow i => i

/-- The effect on values; the flag is `false` when an exception is thrown.  Outside the preconditions (`none`):
copying or accessing a moved-from variant, copy-assigning a variant to itself, assigning an element of a variant to that
variant, and element constructors that throw during an assignment or `emplace<T>`. -/
def spec (moved : V → V) (σ : Env (Value V)) : Op V → Option (Bool × Env (Value V))
  | .new x v =>
    match σ x with
    | none => some (true, σ.set x (some (.holds 0 v)))
    | some _ => none
  | .newVal x i v throws =>
    match σ x with
    | none => if throws then some (false, σ) else some (true, σ.set x (some (.holds i v)))
    | some _ => none
  | .newCopy x y throws =>
    match σ x, σ y with
    | none, some (.holds i v) => if throws then some (false, σ) else some (true, σ.set x (some (.holds i v)))
    | none, some (.hollow none) => some (false, σ)
    | _, _ => none
  | .newMove x y =>
    match σ x, σ y with
    | none, some a => some (true, (σ.set x (some a)).set y (some (.hollow a.index)))
    | _, _ => none
  | .destroy x =>
    match σ x with
    | some _ => some (true, σ.set x none)
    | none => none
  | .copyAssign x y throws =>
    if x = y ∨ throws = true then none
    else
      match σ x, σ y with
      | some _, some (.holds i v) => some (true, σ.set x (some (.holds i v)))
      | some _, some (.hollow none) => some (false, σ.set x (some (.hollow none)))
      | _, _ => none
  | .moveAssign x y =>
    match σ x, σ y with
    | some _, some a => some (true, (σ.set x (some a)).set y (some (.hollow a.index)))
    | _, _ => none
  | .valAssign x i v throws =>
    match σ x with
    | some _ => if throws then none else some (true, σ.set x (some (.holds i v)))
    | none => none
  | .elemAssign x y i =>
    match σ x, σ y with
    | some _, some (.holds j v) =>
      if j ≠ i then some (false, σ)
      else if x = y then none
      else some (true, (σ.set y (some (.holds i (moved v)))).set x (some (.holds i v)))
    | some _, some (.hollow j) => if j ≠ some i then some (false, σ) else none
    | _, _ => none
  | .emplaceType x i v throws =>
    match σ x with
    | some _ => if throws then none else some (true, σ.set x (some (.holds i v)))
    | none => none
  | .emplaceIndex x i v throws =>
    match σ x with
    | some _ => if throws then some (false, σ.set x (some (.hollow none))) else some (true, σ.set x (some (.holds i v)))
    | none => none
  | .swap x y =>
    match σ x, σ y with
    | some a, some b => some (true, (σ.set x (some b)).set y (some a))
    | _, _ => none
  | .write x i v =>
    match σ x with
    | some (.holds j _) => if j ≠ i then some (false, σ) else some (true, σ.set x (some (.holds i v)))
    | some (.hollow j) => if j ≠ some i then some (false, σ) else none
    | none => none

/-- A history. -/
def specRun (moved : V → V) (σ : Env (Value V)) : List (Op V) → Option (Env (Value V))
  | [] => some σ
  | op :: ops =>
    match spec moved σ op with
    | some (_, σ') => specRun moved σ' ops
    | none => none

/-- What a variable of the program holds. -/
def valueOf (h : Heap (Block V)) (v : Var) : Value V :=
  match v.index, v.data with
  | some i, some p =>
    match h[p]? with
    | some (some b) => .holds i b.2
    | _ => .hollow (some i)
  | i, _ => .hollow i

/-- The values of all variables. -/
def values (s : State V) : Env (Value V) := fun x => (s.env x).map (valueOf s.heap)

/-- Blocks that have been allocated and not freed. -/
def liveBlocks (s : State V) : Nat := (s.heap.filter Option.isSome).length

end Variant

namespace DynOpt
variable {V : Type}

/-- The effect on values: every variable holds `none` or `some v`; only using an unconstructed variable, constructing one
twice and dereferencing an empty optional are excluded. -/
def spec (σ : Env (Option V)) : Op V → Option (Env (Option V))
  | .new x =>
    match σ x with
    | none => some (σ.set x (some none))
    | some _ => none
  | .newVal x v =>
    match σ x with
    | none => some (σ.set x (some (some v)))
    | some _ => none
  | .newCopy x y =>
    match σ x, σ y with
    | none, some a => some (σ.set x (some a))
    | _, _ => none
  | .newMove x y =>
    match σ x, σ y with
    | none, some a => some ((σ.set x (some a)).set y (some none))
    | _, _ => none
  | .destroy x =>
    match σ x with
    | some _ => some (σ.set x none)
    | none => none
  | .copyAssign x y =>
    match σ x, σ y with
    | some _, some a => some (σ.set x (some a))
    | _, _ => none
  | .moveAssign x y =>
    match σ x, σ y with
    | some _, some a => if x = y then some σ else some ((σ.set x (some a)).set y (some none))
    | _, _ => none
  | .reset x =>
    match σ x with
    | some _ => some (σ.set x (some none))
    | none => none
  | .assign x v =>
    match σ x with
    | some _ => some (σ.set x (some (some v)))
    | none => none
  | .assignElem x y =>
    match σ x, σ y with
    | some _, some (some v) => some (σ.set x (some (some v)))
    | _, _ => none
  | .write x v =>
    match σ x with
    | some (some _) => some (σ.set x (some (some v)))
    | _ => none

def specRun (σ : Env (Option V)) : List (Op V) → Option (Env (Option V))
  | [] => some σ
  | op :: ops =>
    match spec σ op with
    | some σ' => specRun σ' ops
    | none => none

/-- What a variable holds. -/
def valueOf (h : Heap V) : Option Nat → Option V
  | none => none
  | some p => (h[p]?).join

def values (s : State V) : Env (Option V) := fun x => (s.env x).map (valueOf s.heap)

def liveBlocks (s : State V) : Nat := (s.heap.filter Option.isSome).length

end DynOpt

end FastBer
