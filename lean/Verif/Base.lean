/-!
# Base vocabulary of the model

* `Bytes`      – contents of a span / vector / array of `uint8_t`.
* `Exec`       – outcome of running a piece of C++: a value, undefined behaviour, or divergence.
* `u64`        – `size_t` arithmetic (reduction mod 2^64).
-/
namespace FastBer

/-- Contents of an `absl::Span<uint8_t>`, `std::array<uint8_t, n>` or `absl::InlinedVector<uint8_t>`. -/
abbrev Bytes := List UInt8

/-- Outcome of executing C++ code.  `ub` stands for undefined behaviour: signed overflow, null
dereference, or any access outside the span/vector/array the code was given.  `loop` stands for an
execution that never terminates. -/
inductive Exec (α : Type u) where
  | ok (a : α)
  | ub
  | loop
  deriving Repr, DecidableEq

namespace Exec

def bind {α : Type u} {β : Type v} (x : Exec α) (f : α → Exec β) : Exec β :=
  match x with
  | ok a => f a
  | ub => ub
  | loop => loop

instance : Monad Exec where
  pure := ok
  bind := bind

@[simp] theorem pure_eq {α : Type u} (a : α) : (pure a : Exec α) = ok a := rfl
@[simp] theorem ok_bind {α β : Type u} (a : α) (f : α → Exec β) : (ok a >>= f) = f a := rfl
@[simp] theorem ub_bind {α β : Type u} (f : α → Exec β) : ((ub : Exec α) >>= f) = ub := rfl
@[simp] theorem loop_bind {α β : Type u} (f : α → Exec β) : ((loop : Exec α) >>= f) = loop := rfl
@[simp] theorem map_eq {α β : Type u} (f : α → β) (x : Exec α) :
    (f <$> x) = (x >>= fun a => ok (f a)) := by cases x <;> rfl

/-- The execution finishes normally. -/
def Safe {α : Type u} (x : Exec α) : Prop := ∃ a, x = ok a

theorem bind_eq_ok {α β : Type u} {x : Exec α} {f : α → Exec β} {b : β} :
    (x >>= f) = ok b ↔ ∃ a, x = ok a ∧ f a = ok b := by
  cases x <;> simp

@[simp] theorem safe_ok {α : Type u} (a : α) : Safe (ok a) := ⟨a, rfl⟩
@[simp] theorem not_safe_ub {α : Type u} : ¬ Safe (ub : Exec α) := by rintro ⟨a, h⟩; cases h
@[simp] theorem not_safe_loop {α : Type u} : ¬ Safe (loop : Exec α) := by rintro ⟨a, h⟩; cases h

theorem safe_bind {α β : Type u} {x : Exec α} {f : α → Exec β} :
    Safe (x >>= f) ↔ ∃ a, x = ok a ∧ Safe (f a) := by
  cases x <;> simp

end Exec

/-- `size_t` reduction. -/
def u64 (n : Nat) : Nat := n % 2 ^ 64

theorem u64_of_lt {n : Nat} (h : n < 2 ^ 64) : u64 n = n := Nat.mod_eq_of_lt h
theorem u64_lt (n : Nat) : u64 n < 2 ^ 64 := Nat.mod_lt _ (by decide)

/-! ## Facts about single octets (complete enumeration of the 256 octets by the kernel) -/

theorem forall_byte {P : UInt8 → Prop} (h : ∀ n : Fin 256, P (UInt8.ofNat n.val)) (b : UInt8) : P b := by
  have := h ⟨b.toNat, b.toNat_lt⟩
  simpa using this

@[simp] theorem toNat_ofNat (n : Nat) : (UInt8.ofNat n).toNat = n % 256 := by simp

theorem byte_ext {a b : UInt8} (h : a.toNat = b.toNat) : a = b := UInt8.toNat_inj.mp h

theorem ofNat_toNat_eq {n : Nat} {b : UInt8} (h : n = b.toNat) : UInt8.ofNat n = b := by
  subst h; simp

/-! ## Buffers -/

/-- `memcpy(buf.data(), bs.data(), bs.size())`: overwrite the first `bs.length` bytes of a buffer.
Callers guard that `bs.length ≤ buf.length`. -/
def writePrefix (buf bs : Bytes) : Bytes := bs ++ buf.drop bs.length

theorem length_writePrefix {buf bs : Bytes} (h : bs.length ≤ buf.length) :
    (writePrefix buf bs).length = buf.length := by
  simp [writePrefix]; omega

/-- `memcpy(buf.data() + i, bs.data(), bs.size())`.  Callers guard that it fits. -/
def writeAt (buf : Bytes) (i : Nat) (bs : Bytes) : Bytes :=
  buf.take i ++ bs ++ buf.drop (i + bs.length)

theorem length_writeAt {buf bs : Bytes} {i : Nat} (h : i + bs.length ≤ buf.length) :
    (writeAt buf i bs).length = buf.length := by
  simp [writeAt]; omega

theorem writeAt_zero (buf bs : Bytes) : writeAt buf 0 bs = writePrefix buf bs := by
  simp [writeAt, writePrefix]

end FastBer
