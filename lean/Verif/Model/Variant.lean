import Verif.Base
/-!
# DynamicVariant and DynamicOptional: explicit heap

Models `util/DynamicVariant.hpp` and `util/DynamicOptional.hpp`.  The heap is a list of blocks, a pointer an index into
it; freed blocks are never reused, so that every access to a freed block shows.  A program is a list of operations on
named variables.  Allocation never fails; whether the constructor of an element throws is a parameter of the operations
that run one.  Element values are of an arbitrary type `V`; `moved v` is what a moved-from element holds.
-/
namespace FastBer

/-- A block is live (`some`) or freed (`none`).  (Not code of its own: memory as DynamicVariant.hpp:332-545 and DynamicOptional.hpp:16-91 use it.) -/
abbrev Heap (β : Type) := List (Option β)

namespace Heap
variable {β : Type}

/-- `new`.  (Not code of its own: memory as DynamicVariant.hpp:332-545 and DynamicOptional.hpp:16-91 use it.) -/
def alloc (h : Heap β) (b : β) : Heap β × Nat := (h ++ [some b], h.length)

/-- Reading through a pointer.  (Not code of its own: memory as DynamicVariant.hpp:332-545 and DynamicOptional.hpp:16-91 use it.) -/
def read (h : Heap β) (p : Nat) : Exec β :=
  match h[p]? with
  | some (some b) => .ok b
  | _ => .ub

/-- Writing through a pointer.  (Not code of its own: memory as DynamicVariant.hpp:332-545 and DynamicOptional.hpp:16-91 use it.) -/
def write (h : Heap β) (p : Nat) (b : β) : Exec (Heap β) :=
  match h[p]? with
  | some (some _) => .ok (h.set p (some b))
  | _ => .ub

/-- `delete`.  (Not code of its own: memory as DynamicVariant.hpp:332-545 and DynamicOptional.hpp:16-91 use it.) -/
def free (h : Heap β) (p : Nat) : Exec (Heap β) :=
  match h[p]? with
  | some (some _) => .ok (h.set p none)
  | _ => .ub

end Heap

/-- Variables: `none` is a variable that is not constructed (or destroyed).  (Not code of its own: memory as DynamicVariant.hpp:332-545 and DynamicOptional.hpp:16-91 use it.) -/
abbrev Env (α : Type) := Nat → Option α

/-- A variable is constructed or destroyed.  Not code of its own. -/
def Env.set {α : Type} (e : Env α) (x : Nat) (a : Option α) : Env α := fun y => if y = x then a else e y

/-! ## DynamicVariant -/

namespace Variant

/-- `m_index` (`none`: `variant_npos`) and `m_data` (`none`: null) (DynamicVariant.hpp:543-544). -/
structure Var where
  index : Option Nat
  data : Option Nat
  deriving DecidableEq, Repr

/-- A block holds an alternative: its type (position) and value.  (Not code of its own: memory as DynamicVariant.hpp:332-545 and DynamicOptional.hpp:16-91 use it.) -/
abbrev Block (V : Type) := Nat × V

/-- Memory and variables of a program.  Not code of its own. -/
structure State (V : Type) where
  heap : Heap (Block V)
  env : Env Var

variable {V : Type}

/-- `get<i>(v)` and what `visit` does with the current alternative (DynamicVariant.hpp:107-187, 213-248): the reference to
the element of type `index`.  A null or dangling pointer or an element of another type is undefined. -/
def element (h : Heap (Block V)) (v : Var) (i : Nat) : Exec (Nat × V) :=
  match v.data with
  | none => .ub
  | some p => do
    let b ← h.read p
    if b.1 = i then .ok (p, b.2) else .ub

/-- `if (!valueless_by_exception() && m_data != nullptr) visit(DeleteVisitor(), *this)`
(DynamicVariant.hpp:387-393, 397-400, 409-412, 427-430, 440-443, 474-477). -/
def deleteOld (h : Heap (Block V)) (v : Var) : Exec (Heap (Block V)) :=
  match v.index, v.data with
  | some i, some _ => do
    let (p, _) ← element h v i
    h.free p
  | _, _ => .ok h

/-- Operations.  `throws`: the constructor of the element throws.  (Not code of its own: memory as DynamicVariant.hpp:332-545 and DynamicOptional.hpp:16-91 use it.) -/
inductive Op (V : Type) where
  /-- `DynamicVariant x;` (332), with the default value of the first alternative -/
  | new (x : Nat) (v : V)
  /-- `DynamicVariant x(value)`, `x(in_place_type<T>, …)`, `x(in_place_index<i>, …)` (342-385) -/
  | newVal (x i : Nat) (v : V) (throws : Bool)
  /-- `DynamicVariant x(y);` (333-336) -/
  | newCopy (x y : Nat) (throws : Bool)
  /-- `DynamicVariant x(std::move(y));` (337-340) -/
  | newMove (x y : Nat)
  /-- end of the life of `x` (387-393) -/
  | destroy (x : Nat)
  /-- `x = y;` (395-405) -/
  | copyAssign (x y : Nat) (throws : Bool)
  /-- `x = std::move(y);` (407-418) -/
  | moveAssign (x y : Nat)
  /-- `x = value;`, a temporary (420-434) -/
  | valAssign (x i : Nat) (v : V) (throws : Bool)
  /-- `x = get<i>(y);`, the element of a variable that is not const (420-434) -/
  | elemAssign (x y i : Nat)
  /-- `x.emplace<T>(…);` (436-449) -/
  | emplaceType (x i : Nat) (v : V) (throws : Bool)
  /-- `x.emplace<i>(…);` (467-491) -/
  | emplaceIndex (x i : Nat) (v : V) (throws : Bool)
  /-- `x.swap(y);` (524-528) -/
  | swap (x y : Nat)
  /-- `get<i>(x) = v;` -/
  | write (x i : Nat) (v : V)

/-- Using a variable that is not constructed is undefined.  (Not code of its own: memory as DynamicVariant.hpp:332-545 and DynamicOptional.hpp:16-91 use it.) -/
def lookup (s : State V) (x : Nat) : Exec Var :=
  match s.env x with
  | some v => .ok v
  | none => .ub

/-- Constructing a variable twice is undefined.  (Not code of its own: memory as DynamicVariant.hpp:332-545 and DynamicOptional.hpp:16-91 use it.) -/
def fresh (s : State V) (x : Nat) : Exec Unit :=
  match s.env x with
  | some _ => .ub
  | none => .ok ()

/-- One operation (util/DynamicVariant.hpp, lines at the constructors of `Op`).  The flag is `false` if an exception leaves
the operation. -/
def step (moved : V → V) (s : State V) : Op V → Exec (Bool × State V)
  | .new x v => do
    fresh s x
    let (h, p) := s.heap.alloc (0, v)
    .ok (true, ⟨h, s.env.set x (some ⟨some 0, some p⟩)⟩)
  | .newVal x i v throws => do
    fresh s x
    if throws then .ok (false, s)
    else
      let (h, p) := s.heap.alloc (i, v)
      .ok (true, ⟨h, s.env.set x (some ⟨some i, some p⟩)⟩)
  | .newCopy x y throws => do
    fresh s x
    let o ← lookup s y
    match o.index with
    | none => .ok (false, s)
    | some i =>
      let (_, v) ← element s.heap o i
      if throws then .ok (false, s)
      else
        let (h, p) := s.heap.alloc (i, v)
        .ok (true, ⟨h, s.env.set x (some ⟨some i, some p⟩)⟩)
  | .newMove x y => do
    fresh s x
    let o ← lookup s y
    .ok (true, ⟨s.heap, (s.env.set x (some o)).set y (some ⟨o.index, none⟩)⟩)
  | .destroy x => do
    let o ← lookup s x
    let h ← deleteOld s.heap o
    .ok (true, ⟨h, s.env.set x none⟩)
  | .copyAssign x y throws => do
    let t ← lookup s x
    let o ← lookup s y
    let h ← deleteOld s.heap t
    -- `m_index = other.m_index`, then the copy; `other` may be `*this`
    let env := s.env.set x (some ⟨o.index, t.data⟩)
    let o := if x = y then ⟨o.index, t.data⟩ else o
    match o.index with
    | none => .ok (false, ⟨h, env⟩)
    | some i =>
      let (_, v) ← element h o i
      if throws then .ok (false, ⟨h, env⟩)
      else
        let (h, p) := h.alloc (i, v)
        .ok (true, ⟨h, s.env.set x (some ⟨some i, some p⟩)⟩)
  | .moveAssign x y => do
    let t ← lookup s x
    let o ← lookup s y
    let h ← deleteOld s.heap t
    .ok (true, ⟨h, (s.env.set x (some o)).set y (some ⟨o.index, none⟩)⟩)
  | .valAssign x i v throws => do
    let t ← lookup s x
    let h ← deleteOld s.heap t
    if throws then .ok (false, ⟨h, s.env.set x (some ⟨some i, t.data⟩)⟩)
    else
      let (h, p) := h.alloc (i, v)
      .ok (true, ⟨h, s.env.set x (some ⟨some i, some p⟩)⟩)
  | .elemAssign x y i => do
    let o ← lookup s y
    let t ← lookup s x
    if o.index ≠ some i then .ok (false, s)
    else
      let (src, _) ← element s.heap o i
      let h ← deleteOld s.heap t
      -- `new T(std::move(t))`: the source is moved from although it was an lvalue
      let b ← h.read src
      let h ← h.write src (b.1, moved b.2)
      let (h, p) := h.alloc (i, b.2)
      .ok (true, ⟨h, s.env.set x (some ⟨some i, some p⟩)⟩)
  | .emplaceType x i v throws => do
    let t ← lookup s x
    let h ← deleteOld s.heap t
    if throws then .ok (false, ⟨h, s.env.set x (some ⟨some i, t.data⟩)⟩)
    else
      let (h, p) := h.alloc (i, v)
      .ok (true, ⟨h, s.env.set x (some ⟨some i, some p⟩)⟩)
  | .emplaceIndex x i v throws => do
    let t ← lookup s x
    let h ← deleteOld s.heap t
    if throws then .ok (false, ⟨h, s.env.set x (some ⟨none, t.data⟩)⟩)
    else
      let (h, p) := h.alloc (i, v)
      .ok (true, ⟨h, s.env.set x (some ⟨some i, some p⟩)⟩)
  | .swap x y => do
    let a ← lookup s x
    let b ← lookup s y
    .ok (true, ⟨s.heap, (s.env.set x (some b)).set y (some a)⟩)
  | .write x i v => do
    let o ← lookup s x
    if o.index ≠ some i then .ok (false, s)
    else
      let (p, _) ← element s.heap o i
      let h ← s.heap.write p (i, v)
      .ok (true, ⟨h, s.env⟩)

/-- A history of operations; exceptions are caught by the caller.  (Not code of its own: memory as DynamicVariant.hpp:332-545 and DynamicOptional.hpp:16-91 use it.) -/
def run (moved : V → V) (s : State V) : List (Op V) → Exec (State V)
  | [] => .ok s
  | op :: ops => do
    let r ← step moved s op
    run moved r.2 ops

/-- Start of the program.  (Not code of its own: memory as DynamicVariant.hpp:332-545 and DynamicOptional.hpp:16-91 use it.) -/
def State.start : State V := ⟨[], fun _ => none⟩

/-! ### Comparison (DynamicVariant.hpp:552-631) -/

/-- `visit_binary(vis, a, b)` (DynamicVariant.hpp:251-277); `none`: `throw 0` because no alternative has the index. -/
def visitBinary (h : Heap (Block V)) (cmp : Nat → V → V → Bool) (a b : Var) : Exec (Option Bool) :=
  match a.index with
  | none => .ok none
  | some i => do
    let (_, x) ← element h a i
    let (_, y) ← element h b i
    .ok (some (cmp i x y))

/-- `index() + 1` as a `size_t`.  (DynamicVariant.hpp:522: `index()`, used by the comparisons) -/
def rank (v : Var) : Nat :=
  match v.index with
  | none => 0
  | some i => i + 1

/-- The comparison operators of the alternatives.  (parameters of the comparisons of DynamicVariant.hpp) -/
structure Cmp (V : Type) where
  eq : Nat → V → V → Bool
  gt : Nat → V → V → Bool
  le : Nat → V → V → Bool
  ge : Nat → V → V → Bool

/-- `operator==` (597-601). -/
def opEq (c : Cmp V) (h : Heap (Block V)) (a b : Var) : Exec (Option Bool) :=
  if a.index ≠ b.index then .ok (some false) else visitBinary h c.eq a b

/-- `operator!=` (603-607). -/
def opNe (c : Cmp V) (h : Heap (Block V)) (a b : Var) : Exec (Option Bool) :=
  if a.index ≠ b.index then .ok (some true) else do
    let r ← visitBinary h c.eq a b
    .ok (r.map (!·))

/-- `operator<` (609-613); `LessThan` evaluates `lhs == rhs` (561-568). -/
def opLt (c : Cmp V) (h : Heap (Block V)) (a b : Var) : Exec (Option Bool) :=
  if a.index ≠ b.index then .ok (some (decide (rank a < rank b))) else visitBinary h c.eq a b

/-- `operator>` (615-619). -/
def opGt (c : Cmp V) (h : Heap (Block V)) (a b : Var) : Exec (Option Bool) :=
  if a.index ≠ b.index then .ok (some (decide (rank a > rank b))) else visitBinary h c.gt a b

/-- `operator<=` (621-625). -/
def opLe (c : Cmp V) (h : Heap (Block V)) (a b : Var) : Exec (Option Bool) :=
  if a.index ≠ b.index then .ok (some (decide (rank a < rank b))) else visitBinary h c.le a b

/-- `operator>=` (627-631). -/
def opGe (c : Cmp V) (h : Heap (Block V)) (a b : Var) : Exec (Option Bool) :=
  if a.index ≠ b.index then .ok (some (decide (rank a > rank b))) else visitBinary h c.ge a b

end Variant

/-! ## DynamicOptional -/

namespace DynOpt

/-- Variables hold `m_val`: null or a pointer (DynamicOptional.hpp:105). -/
structure State (V : Type) where
  heap : Heap V
  env : Env (Option Nat)

variable {V : Type}

/-- The members of `DynamicOptional`; lines of DynamicOptional.hpp are given for each. -/
inductive Op (V : Type) where
  /-- `DynamicOptional x;` or `x(empty)` (16, 19) -/
  | new (x : Nat)
  /-- `DynamicOptional x(value);` (20-32) -/
  | newVal (x : Nat) (v : V)
  /-- `DynamicOptional x(y);` (17) -/
  | newCopy (x y : Nat)
  /-- `DynamicOptional x(std::move(y));` (18) -/
  | newMove (x y : Nat)
  | destroy (x : Nat)
  /-- `x = y;` (40-51) -/
  | copyAssign (x y : Nat)
  /-- `x = std::move(y);` (62) -/
  | moveAssign (x y : Nat)
  /-- `x = empty;` (52-56) -/
  | reset (x : Nat)
  /-- `x = value;`, `x.emplace(value);` (34-39, 57-61, 70-75) -/
  | assign (x : Nat) (v : V)
  /-- `x = *y;` (57-61) -/
  | assignElem (x y : Nat)
  /-- `*x = v;` (64-65) -/
  | write (x : Nat) (v : V)

/-- Using a variable that is not constructed is undefined.  Not code of its own. -/
def lookup (s : State V) (x : Nat) : Exec (Option Nat) :=
  match s.env x with
  | some v => .ok v
  | none => .ub

/-- Constructing a variable twice is undefined.  Not code of its own. -/
def fresh (s : State V) (x : Nat) : Exec Unit :=
  match s.env x with
  | some _ => .ub
  | none => .ok ()

/-- `*m_val`.  (DynamicOptional.hpp:64-67) -/
def deref (h : Heap V) : Option Nat → Exec V
  | none => .ub
  | some p => h.read p

/-- `unique_ptr` gets a new pointer: the old block is deleted afterwards.  (DynamicOptional.hpp:52-61) -/
def replace (h : Heap V) (old : Option Nat) : Exec (Heap V) :=
  match old with
  | none => .ok h
  | some p => h.free p

/-- One operation (util/DynamicOptional.hpp, lines at the constructors of `Op`). -/
def step (s : State V) : Op V → Exec (State V)
  | .new x => do
    fresh s x
    .ok ⟨s.heap, s.env.set x (some none)⟩
  | .newVal x v => do
    fresh s x
    let (h, p) := s.heap.alloc v
    .ok ⟨h, s.env.set x (some (some p))⟩
  | .newCopy x y => do
    -- `m_val(nullptr)`, then `*this = rhs`
    fresh s x
    let o ← lookup s y
    match o with
    | none => .ok ⟨s.heap, s.env.set x (some none)⟩
    | some _ =>
      let v ← deref s.heap o
      let (h, p) := s.heap.alloc v
      .ok ⟨h, s.env.set x (some (some p))⟩
  | .newMove x y => do
    fresh s x
    let o ← lookup s y
    .ok ⟨s.heap, (s.env.set x (some o)).set y (some none)⟩
  | .destroy x => do
    let o ← lookup s x
    let h ← replace s.heap o
    .ok ⟨h, s.env.set x none⟩
  | .copyAssign x y => do
    let t ← lookup s x
    let o ← lookup s y
    match o with
    | none =>
      let h ← replace s.heap t
      .ok ⟨h, s.env.set x (some none)⟩
    | some _ =>
      let v ← deref s.heap o
      let (h, p) := s.heap.alloc v
      let h ← replace h t
      .ok ⟨h, s.env.set x (some (some p))⟩
  | .moveAssign x y => do
    -- `reset(rhs.release())`: the old pointer is replaced before it is deleted
    let t ← lookup s x
    let o ← lookup s y
    if x = y then .ok s
    else
      let h ← replace s.heap t
      .ok ⟨h, (s.env.set x (some o)).set y (some none)⟩
  | .reset x => do
    let t ← lookup s x
    let h ← replace s.heap t
    .ok ⟨h, s.env.set x (some none)⟩
  | .assign x v => do
    let t ← lookup s x
    let (h, p) := s.heap.alloc v
    let h ← replace h t
    .ok ⟨h, s.env.set x (some (some p))⟩
  | .assignElem x y => do
    let t ← lookup s x
    let o ← lookup s y
    let v ← deref s.heap o
    let (h, p) := s.heap.alloc v
    let h ← replace h t
    .ok ⟨h, s.env.set x (some (some p))⟩
  | .write x v => do
    let o ← lookup s x
    match o with
    | none => .ub
    | some p =>
      let h ← s.heap.write p v
      .ok ⟨h, s.env⟩

/-- A history of operations.  Not code of its own. -/
def run (s : State V) : List (Op V) → Exec (State V)
  | [] => .ok s
  | op :: ops => do
    let s ← step s op
    run s ops

/-- Start of the program.  Not code of its own. -/
def State.start : State V := ⟨[], fun _ => none⟩

/-- `operator==` (DynamicOptional.hpp:78-91). -/
def opEq (eq : V → V → Bool) (h : Heap V) (a b : Option Nat) : Exec Bool :=
  match a, b with
  | none, none => .ok true
  | some _, some _ => do
    let x ← deref h a
    let y ← deref h b
    .ok (eq x y)
  | _, _ => .ok false

end DynOpt

end FastBer
