import Verif.Proofs.Variant
/-!
# C49, C50, C51, C71: DynamicVariant and DynamicOptional

`run` is the program with its heap (Model/Variant.lean); `specRun` says what the variables hold (Spec/Variant.lean).
-/
namespace FastBer.Props
open FastBer

section C49
open Variant
variable {V : Type}

/-- No variable exists before the program starts. -/
def nothing {α : Type} : Env α := fun _ => none

theorem values_start : values (State.start : State V) = nothing := rfl

/-- Lifetimes only: which variables exist after an operation; `none` if it uses a variable that does not exist or constructs
one that exists.  This is all C++ asks of the user. -/
def lifetime (alive : Nat → Bool) : Op V → Option (Nat → Bool)
  | .new x _ => if alive x then none else some fun y => y == x || alive y
  | .newVal x _ _ throws => if alive x then none else some fun y => (y == x && !throws) || alive y
  | .newCopy x y throws => if alive x || !alive y then none else some fun z => (z == x && !throws) || alive z
  | .newMove x y => if alive x || !alive y then none else some fun z => z == x || alive z
  | .destroy x => if alive x then some fun y => y != x && alive y else none
  | .copyAssign x y _ => if alive x && alive y then some alive else none
  | .moveAssign x y => if alive x && alive y then some alive else none
  | .valAssign x _ _ _ => if alive x then some alive else none
  | .elemAssign x y _ => if alive x && alive y then some alive else none
  | .emplaceType x _ _ _ => if alive x then some alive else none
  | .emplaceIndex x _ _ _ => if alive x then some alive else none
  | .swap x y => if alive x && alive y then some alive else none
  | .write x _ _ => if alive x then some alive else none

def lifetimes (alive : Nat → Bool) : List (Op V) → Option (Nat → Bool)
  | [] => some alive
  | op :: ops =>
    match lifetime alive op with
    | some a => lifetimes a ops
    | none => none

/-- C49 in full: a program that uses variables only while they exist runs without undefined behaviour. -/
def C49_statement : Prop := ∀ (V : Type) (moved : V → V) (ops : List (Op V)),
  (lifetimes (fun _ => false) ops).isSome → run moved State.start ops ≠ .ub

/-- Assigning a variant to itself reads the element that was just deleted. -/
theorem C49_self_copy_violated : ¬ C49_statement := fun h =>
  h Nat id [.new 0 7, .copyAssign 0 0 false] (by decide +kernel) rfl

/-- Copying a variant that has been moved from dereferences null. -/
theorem C49_moved_from_violated : ¬ C49_statement := fun h =>
  h Nat id [.new 0 7, .newMove 1 0, .newCopy 2 0 false] (by decide +kernel) rfl

/-- Assigning to a variant its own element moves from the deleted element. -/
theorem C49_own_element_violated : ¬ C49_statement := fun h =>
  h Nat id [.new 0 7, .elemAssign 0 0 0] (by decide +kernel) rfl

/-- An element constructor that throws during an assignment leaves a dangling pointer, which the destructor deletes again. -/
theorem C49_throw_violated : ¬ C49_statement := fun h =>
  h Nat id [.new 0 7, .valAssign 0 1 8 true, .destroy 0] (by decide +kernel) rfl

/-- Histories within the preconditions of `Variant.spec`: no undefined behaviour (so no double free, no use after free), every
variable holds what was last stored in it, and when every variable has been destroyed nothing is left allocated. Missing
from the full statement: the four kinds of operations shown above. -/
theorem C49_history_partial (moved : V → V) (ops : List (Op V)) (σ : Env (Value V))
    (hs : specRun moved nothing ops = some σ) :
    ∃ s, run moved State.start ops = .ok s ∧ values s = σ ∧ ((∀ x, σ x = none) → liveBlocks s = 0) := by
  obtain ⟨s, e, H, v⟩ := run_ok moved inv_start (by rw [values_start]; exact hs)
  refine ⟨s, e, v, fun hall => H.noLive (fun x a ha => ?_)⟩
  have : values s x = none := by rw [v]; exact hall x
  rw [values_none this] at ha; cases ha

theorem nodup_length_le {ys xs : List Nat} (hn : ys.Nodup) (hs : ∀ y ∈ ys, y ∈ xs) : ys.length ≤ xs.length := by
  induction ys generalizing xs with
  | nil => exact Nat.zero_le _
  | cons y ys ih =>
    obtain ⟨h1, h2⟩ := List.nodup_cons.mp hn
    have hy : y ∈ xs := hs y (by simp)
    have := ih (xs := xs.erase y) h2 (fun z hz => (List.mem_erase_of_ne (by rintro rfl; exact h1 hz)).mpr (hs z (by simp [hz])))
    rw [List.length_erase_of_mem hy] at this
    have := List.length_pos_of_mem hy
    simp only [List.length_cons]; omega

/-- The number of live blocks never exceeds the number of variables that hold something: nothing is leaked on the way. -/
theorem C49_no_leak_partial (moved : V → V) (ops : List (Op V)) (σ : Env (Value V)) (xs : List Nat)
    (hs : specRun moved nothing ops = some σ) (hxs : ∀ x i v, σ x = some (.holds i v) → x ∈ xs) :
    ∃ s, run moved State.start ops = .ok s ∧ liveBlocks s ≤ xs.length := by
  obtain ⟨s, e, H, v⟩ := run_ok moved inv_start (by rw [values_start]; exact hs)
  refine ⟨s, e, ?_⟩
  -- map every live block to its owner's position: the owners are pairwise different
  have key : ∀ (n : Nat) (h : Heap (Block V)), h.length = n → (∀ (p : Nat) (b : Block V), h[p]? = some (some b) → s.heap[p]? = some (some b)) →
      ∃ ys : List Nat, ys.Nodup ∧ (∀ y ∈ ys, y ∈ xs ∧ ∃ p a, p < n ∧ s.env y = some a ∧ own a = some p) ∧
        (h.filter Option.isSome).length = ys.length := by
    intro n
    induction n with
    | zero => intro h hl _; exact ⟨[], List.nodup_nil, by simp, by rw [List.length_eq_zero_iff.mp hl]; rfl⟩
    | succ n ih =>
      intro h hl hsub
      have hsplit : h = h.take n ++ [h[n]'(by omega)] := by
        rw [List.take_append_getElem (by omega), ← hl, List.take_length]
      obtain ⟨ys, hnd, hys, hlen⟩ := ih (h.take n) (by rw [List.length_take]; omega) (fun p b hp => hsub p b (by
        rw [List.getElem?_take] at hp
        split at hp
        · exact hp
        · cases hp))
      cases hn : h[n]'(by omega) with
      | none =>
        refine ⟨ys, hnd, fun y hy => ?_, ?_⟩
        · obtain ⟨h1, p, a, h2, h3, h4⟩ := hys y hy
          exact ⟨h1, p, a, by omega, h3, h4⟩
        · rw [hsplit, List.filter_append, List.length_append, hlen, hn]; rfl
      | some b =>
        have hb := hsub n b (by rw [List.getElem?_eq_getElem (by omega), hn])
        obtain ⟨x, a, hx, ha⟩ := H.noleak n b hb
        refine ⟨x :: ys, List.nodup_cons.mpr ⟨fun hmem => ?_, hnd⟩, fun y hy => ?_, ?_⟩
        · obtain ⟨_, p, a', h2, h3, h4⟩ := hys x hmem
          rw [hx] at h3; cases h3; rw [ha] at h4; cases h4; omega
        · rcases List.mem_cons.mp hy with rfl | hy
          · refine ⟨?_, n, a, by omega, hx, ha⟩
            have : values s y = some (.holds (a.index.getD 0) b.2) := by
              rw [values_at, hx, Option.map_some, valueOf_eq, contentOf_some ha hb]
            exact hxs y _ _ (by rw [← v]; exact this)
          · obtain ⟨h1, p, a, h2, h3, h4⟩ := hys y hy
            exact ⟨h1, p, a, by omega, h3, h4⟩
        · rw [hsplit, List.filter_append, List.length_append, hlen, hn]; rfl
  obtain ⟨ys, hnd, hys, hlen⟩ := key s.heap.length s.heap rfl (fun p b h => h)
  rw [liveBlocks, hlen]
  exact nodup_length_le hnd (fun y hy => (hys y hy).1)

/-- Each operation of such a history reports (throws or not) and changes exactly what `Variant.spec` says. -/
theorem C49_step_partial (moved : V → V) (ops : List (Op V)) (σ : Env (Value V)) (op : Op V) (b : Bool) (σ' : Env (Value V))
    (hs : specRun moved nothing ops = some σ) (h1 : spec moved σ op = some (b, σ')) :
    ∃ s s', run moved State.start ops = .ok s ∧ step moved s op = .ok (b, s') ∧ values s' = σ' := by
  obtain ⟨s, e, H, v⟩ := run_ok moved inv_start (by rw [values_start]; exact hs)
  obtain ⟨s', e', _, v'⟩ := step_ok moved H (by rw [v]; exact h1)
  exact ⟨s, s', e, e', v'⟩

/-- The preconditions are met by a history that uses every operation. -/
example : (specRun id (nothing : Env (Value Nat))
    [.new 0 7, .newVal 1 2 9 false, .newVal 5 2 9 true, .newCopy 2 0 false, .newMove 3 1, .copyAssign 0 3 false, .moveAssign 1 0,
     .valAssign 0 4 4 false, .elemAssign 2 0 4, .emplaceType 3 1 1 false, .emplaceIndex 3 2 2 false, .emplaceIndex 2 0 0 true,
     .swap 2 3, .write 2 2 11, .moveAssign 0 0, .destroy 0, .destroy 1, .destroy 2, .destroy 3]).isSome := by decide +kernel

/-- ... at whose end every variable is gone. -/
example : ∀ σ, specRun id (nothing : Env (Value Nat))
    [.new 0 7, .newMove 1 0, .destroy 0, .newCopy 0 1 false, .destroy 1, .destroy 0] = some σ → ∀ x, σ x = none := by
  intro σ h x
  simp only [specRun, spec, nothing, Env.set] at h
  cases h
  simp only [Env.set, nothing]
  split <;> first | rfl | (split <;> rfl)

end C49

section C50
open Variant
variable {V : Type}

/-- Two variables at the end of a history. -/
def Pair (moved : V → V) (ops : List (Op V)) (x y : Nat) (a b : Value V) (h : Heap (Block V)) (u v : Var) : Prop :=
  ∃ σ s, specRun moved nothing ops = some σ ∧ σ x = some a ∧ σ y = some b ∧
    run moved State.start ops = .ok s ∧ s.heap = h ∧ s.env x = some u ∧ s.env y = some v

theorem pair_element {moved : V → V} {ops : List (Op V)} {x y i j : Nat} {v w : V} {h : Heap (Block V)} {a b : Var}
    (hp : Pair moved ops x y (.holds i v) (.holds j w) h a b) :
    ∃ p q, a = ⟨some i, some p⟩ ∧ b = ⟨some j, some q⟩ ∧ element h a i = .ok (p, v) ∧ element h b j = .ok (q, w) := by
  obtain ⟨σ, s, hσ, hx, hy, hr, rfl, ha, hb⟩ := hp
  obtain ⟨s', e, H, hv⟩ := run_ok moved inv_start (by rw [values_start]; exact hσ)
  rw [hr] at e; cases e
  rw [← hv] at hx hy
  rw [values_at, ha, Option.map_some, Option.some.injEq] at hx
  rw [values_at, hb, Option.map_some, Option.some.injEq] at hy
  obtain ⟨p, rfl, hp⟩ := holds_owns H ha hx
  obtain ⟨q, rfl, hq⟩ := holds_owns H hb hy
  exact ⟨p, q, rfl, rfl, element_ok hp, element_ok hq⟩

theorem pair_visit {moved : V → V} {ops : List (Op V)} {x y i : Nat} {v w : V} {h : Heap (Block V)} {a b : Var}
    (hp : Pair moved ops x y (.holds i v) (.holds i w) h a b) (cmp : Nat → V → V → Bool) :
    visitBinary h cmp a b = .ok (some (cmp i v w)) := by
  obtain ⟨p, q, rfl, rfl, e1, e2⟩ := pair_element hp
  simp only [visitBinary, e1, e2, Exec.ok_bind]

theorem pair_cases {moved : V → V} {ops : List (Op V)} {x y i j : Nat} {v w : V} {h : Heap (Block V)} {a b : Var}
    (hp : Pair moved ops x y (.holds i v) (.holds j w) h a b) (r : Bool) (cmp : Nat → V → V → Bool) :
    (if a.index ≠ b.index then Exec.ok (some r) else visitBinary h cmp a b) =
      .ok (some (if i = j then cmp i v w else r)) := by
  obtain ⟨p, q, rfl, rfl, _⟩ := pair_element hp
  by_cases hij : i = j
  · subst hij
    rw [if_neg (by simp), if_pos rfl, pair_visit hp]
  · rw [if_pos (by simpa using hij), if_neg hij]

/-- `==`: same alternative and equal values. -/
theorem C50_eq_partial (c : Cmp V) {moved : V → V} {ops : List (Op V)} {x y i j : Nat} {v w : V} {h : Heap (Block V)} {a b : Var}
    (hp : Pair moved ops x y (.holds i v) (.holds j w) h a b) :
    opEq c h a b = .ok (some (decide (i = j) && c.eq i v w)) := by
  rw [opEq, pair_cases hp]; by_cases h : i = j <;> simp [h]

/-- `!=` is its negation. -/
theorem C50_ne_partial (c : Cmp V) {moved : V → V} {ops : List (Op V)} {x y i j : Nat} {v w : V} {h : Heap (Block V)} {a b : Var}
    (hp : Pair moved ops x y (.holds i v) (.holds j w) h a b) :
    opNe c h a b = .ok (some !(decide (i = j) && c.eq i v w)) := by
  obtain ⟨p, q, rfl, rfl, _⟩ := pair_element hp
  rw [opNe]
  by_cases hij : i = j
  · subst hij
    rw [if_neg (by simp), pair_visit hp]; simp [Exec.ok_bind]
  · rw [if_pos (by simpa using hij)]; simp [hij]

/-- `>`: by index, then by value. -/
theorem C50_gt_partial (c : Cmp V) {moved : V → V} {ops : List (Op V)} {x y i j : Nat} {v w : V} {h : Heap (Block V)} {a b : Var}
    (hp : Pair moved ops x y (.holds i v) (.holds j w) h a b) :
    opGt c h a b = .ok (some (decide (i > j) || (decide (i = j) && c.gt i v w))) := by
  rw [opGt, pair_cases hp]
  obtain ⟨p, q, rfl, rfl, _⟩ := pair_element hp
  by_cases h : i = j <;> simp [h, rank]

/-- `<=`: by index, then by value. -/
theorem C50_le_partial (c : Cmp V) {moved : V → V} {ops : List (Op V)} {x y i j : Nat} {v w : V} {h : Heap (Block V)} {a b : Var}
    (hp : Pair moved ops x y (.holds i v) (.holds j w) h a b) :
    opLe c h a b = .ok (some (decide (i < j) || (decide (i = j) && c.le i v w))) := by
  rw [opLe, pair_cases hp]
  obtain ⟨p, q, rfl, rfl, _⟩ := pair_element hp
  by_cases h : i = j <;> simp [h, rank]

/-- `>=`: by index, then by value. -/
theorem C50_ge_partial (c : Cmp V) {moved : V → V} {ops : List (Op V)} {x y i j : Nat} {v w : V} {h : Heap (Block V)} {a b : Var}
    (hp : Pair moved ops x y (.holds i v) (.holds j w) h a b) :
    opGe c h a b = .ok (some (decide (i > j) || (decide (i = j) && c.ge i v w))) := by
  rw [opGe, pair_cases hp]
  obtain ⟨p, q, rfl, rfl, _⟩ := pair_element hp
  by_cases h : i = j <;> simp [h, rank]

/-- `<` orders different alternatives by index. -/
theorem C50_lt_index_partial (c : Cmp V) {moved : V → V} {ops : List (Op V)} {x y i j : Nat} {v w : V} {h : Heap (Block V)}
    {a b : Var} (hp : Pair moved ops x y (.holds i v) (.holds j w) h a b) (hij : i ≠ j) :
    opLt c h a b = .ok (some (decide (i < j))) := by
  rw [opLt, pair_cases hp, if_neg hij]
  obtain ⟨p, q, rfl, rfl, _⟩ := pair_element hp
  simp [rank]

/-- What `<` should do: order by index, then by value. -/
def C50_lt_statement : Prop := ∀ (moved : Nat → Nat) (ops : List (Op Nat)) (x y i j v w : Nat) (h : Heap (Block Nat)) (a b : Var),
  Pair moved ops x y (.holds i v) (.holds j w) h a b →
  opLt ⟨fun _ a b => a == b, fun _ a b => a > b, fun _ a b => a ≤ b, fun _ a b => a ≥ b⟩ h a b =
    .ok (some (decide (i < j) || (decide (i = j) && decide (v < w))))

/-- It does not: it compares values of the same alternative for equality. -/
theorem C50_lt_violated : ¬ C50_lt_statement := by
  intro h
  have := h id [.new 0 1, .newVal 1 0 2 false] 0 1 0 0 1 2 [some (0, 1), some (0, 2)] ⟨some 0, some 0⟩ ⟨some 0, some 1⟩
    ⟨_, _, rfl, rfl, rfl, rfl, rfl, rfl, rfl⟩
  revert this; decide +kernel

/-- `==` should answer for every two variants; two that are valueless make it throw. -/
theorem C50_valueless_violated : ∃ (ops : List (Op Nat)) (σ : Env (Value Nat)) (s : State Nat),
    specRun id nothing ops = some σ ∧ run id State.start ops = .ok s ∧
    ∃ a b, s.env 0 = some a ∧ s.env 1 = some b ∧
      opEq ⟨fun _ a b => a == b, fun _ a b => a > b, fun _ a b => a ≤ b, fun _ a b => a ≥ b⟩ s.heap a b = .ok none :=
  ⟨[.new 0 1, .new 1 1, .emplaceIndex 0 0 0 true, .emplaceIndex 1 0 0 true], _, _, rfl, rfl, _, _, rfl, rfl, rfl⟩

example : ∃ h a b, Pair id [.new 0 1, .newVal 1 3 2 false] 0 1 (.holds 0 1) (.holds 3 2) h a b :=
  ⟨[some (0, 1), some (3, 2)], ⟨some 0, some 0⟩, ⟨some 3, some 1⟩, _, _, rfl, rfl, rfl, rfl, rfl, rfl, rfl⟩

end C50

section C51
open DynOpt
variable {V : Type}

/-- Every history that respects lifetimes and never dereferences an empty optional runs without undefined behaviour; every
variable holds what the history says; and when all variables have been destroyed nothing is left allocated. -/
theorem C51_history (ops : List (Op V)) (σ : Env (Option V)) (hs : specRun nothing ops = some σ) :
    ∃ s, run State.start ops = .ok s ∧ values s = σ ∧ ((∀ x, σ x = none) → liveBlocks s = 0) := by
  obtain ⟨s, e, H, v⟩ := run_ok (s := State.start) inv_start hs
  refine ⟨s, e, v, fun hall => H.noLive (fun x a ha => ?_)⟩
  have : values s x = none := by rw [v]; exact hall x
  rw [values_none this] at ha; cases ha

/-- The variables an operation may change. -/
def changes : Op V → List Nat
  | .new x => [x]
  | .newVal x _ => [x]
  | .newCopy x _ => [x]
  | .newMove x y => [x, y]
  | .destroy x => [x]
  | .copyAssign x _ => [x]
  | .moveAssign x y => [x, y]
  | .reset x => [x]
  | .assign x _ => [x]
  | .assignElem x _ => [x]
  | .write x _ => [x]

theorem spec_frame {σ σ' : Env (Option V)} {op : Op V} (h : spec σ op = some σ') {z : Nat} (hz : z ∉ changes op) :
    σ' z = σ z := by
  cases op <;> simp only [changes, List.mem_cons, List.not_mem_nil, or_false, not_or] at hz <;> simp only [spec] at h <;>
    (repeat' split at h) <;> cases h <;>
    first
      | rfl
      | exact Env.set_other _ _ hz
      | exact (Env.set_other _ _ hz.2).trans (Env.set_other _ _ hz.1)

theorem specRun_frame {σ σ' : Env (Option V)} {ops : List (Op V)} (h : specRun σ ops = some σ') {z : Nat}
    (hz : ∀ op ∈ ops, z ∉ changes op) : σ' z = σ z := by
  induction ops generalizing σ with
  | nil => cases h; rfl
  | cons op ops ih =>
    simp only [specRun] at h
    cases h1 : spec σ op with
    | none => rw [h1] at h; cases h
    | some σ1 =>
      rw [h1] at h
      rw [ih h (fun o ho => hz o (by simp [ho])), spec_frame h1 (hz op (by simp))]

theorem specRun_append {σ : Env (Option V)} {a b : List (Op V)} :
    specRun σ (a ++ b) = (specRun σ a).bind fun σ' => specRun σ' b := by
  induction a generalizing σ with
  | nil => rfl
  | cons op a ih =>
    simp only [List.cons_append, specRun]
    cases spec σ op with
    | none => rfl
    | some σ1 => exact ih

/-- A copy is deep.  After `before; DynamicOptional x(y); after`, where nothing in `after` changes `x`, `x` still holds what `y`
held when it was copied, whatever `after` did to `y`; and if nothing in `after` changes `y`, then `y` still holds it,
whatever happened to `x`. -/
theorem C51_copy_deep (before after : List (Op V)) (x y : Nat) (σ : Env (Option V))
    (hs : specRun nothing (before ++ .newCopy x y :: after) = some σ) :
    ∃ s0 s a, run State.start before = .ok s0 ∧ values s0 y = some a ∧
      run State.start (before ++ .newCopy x y :: after) = .ok s ∧
      ((∀ op ∈ after, x ∉ changes op) → values s x = some a) ∧ ((∀ op ∈ after, y ∉ changes op) → values s y = some a) := by
  obtain ⟨s, e, v, _⟩ := C51_history _ σ hs
  rw [specRun_append] at hs
  cases h0 : specRun nothing before with
  | none => rw [h0] at hs; cases hs
  | some σ0 =>
    rw [h0, Option.bind_some] at hs
    obtain ⟨s0, e0, v0, _⟩ := C51_history _ σ0 h0
    simp only [specRun] at hs
    cases h1 : spec σ0 (.newCopy x y) with
    | none => rw [h1] at hs; cases hs
    | some σ1 =>
      rw [h1] at hs
      simp only at hs
      simp only [spec] at h1
      cases hx : σ0 x with
      | some _ => rw [hx] at h1; simp at h1
      | none =>
        rw [hx] at h1
        cases hy : σ0 y with
        | none => rw [hy] at h1; simp at h1
        | some a =>
          rw [hy] at h1
          cases h1
          have hyx : y ≠ x := by rintro rfl; rw [hx] at hy; cases hy
          refine ⟨s0, s, a, e0, by rw [v0]; exact hy, e, fun h => ?_, fun h => ?_⟩
          · rw [v, specRun_frame hs h, Env.set_same]
          · rw [v, specRun_frame hs h, Env.set_other _ _ hyx]; exact hy

/-- The same for `x = y`, also when both are the same variable. -/
theorem C51_assign_deep (before after : List (Op V)) (x y : Nat) (σ : Env (Option V))
    (hs : specRun nothing (before ++ .copyAssign x y :: after) = some σ) :
    ∃ s0 s a, run State.start before = .ok s0 ∧ values s0 y = some a ∧
      run State.start (before ++ .copyAssign x y :: after) = .ok s ∧
      ((∀ op ∈ after, x ∉ changes op) → values s x = some a) ∧ ((∀ op ∈ after, y ∉ changes op) → values s y = some a) := by
  obtain ⟨s, e, v, _⟩ := C51_history _ σ hs
  rw [specRun_append] at hs
  cases h0 : specRun nothing before with
  | none => rw [h0] at hs; cases hs
  | some σ0 =>
    rw [h0, Option.bind_some] at hs
    obtain ⟨s0, e0, v0, _⟩ := C51_history _ σ0 h0
    simp only [specRun] at hs
    cases h1 : spec σ0 (.copyAssign x y) with
    | none => rw [h1] at hs; cases hs
    | some σ1 =>
      rw [h1] at hs
      simp only at hs
      simp only [spec] at h1
      cases hx : σ0 x with
      | none => rw [hx] at h1; simp at h1
      | some b =>
        rw [hx] at h1
        cases hy : σ0 y with
        | none => rw [hy] at h1; simp at h1
        | some a =>
          rw [hy] at h1
          cases h1
          refine ⟨s0, s, a, e0, by rw [v0]; exact hy, e, fun h => ?_, fun h => ?_⟩
          · rw [v, specRun_frame hs h, Env.set_same]
          · rw [v, specRun_frame hs h]
            by_cases hyx : y = x
            · subst hyx; rw [Env.set_same]
            · rw [Env.set_other _ _ hyx]; exact hy

/-- `==` compares what the optionals hold. -/
theorem C51_eq (eq : V → V → Bool) (ops : List (Op V)) (σ : Env (Option V)) (hs : specRun nothing ops = some σ) (x y : Nat)
    (a b : Option V) (hx : σ x = some a) (hy : σ y = some b) :
    ∃ s p q, run State.start ops = .ok s ∧ s.env x = some p ∧ s.env y = some q ∧
      opEq eq s.heap p q = .ok (match a, b with
        | none, none => true
        | some v, some w => eq v w
        | _, _ => false) := by
  obtain ⟨s, e, H, v⟩ := run_ok (s := State.start) inv_start hs
  rw [← v] at hx hy
  obtain ⟨p, hp, hpv⟩ := values_some hx
  obtain ⟨q, hq, hqv⟩ := values_some hy
  refine ⟨s, p, q, e, hp, hq, ?_⟩
  cases a with
  | none =>
    have := none_owns H hp hpv; subst this
    cases b with
    | none => have := none_owns H hq hqv; subst this; rfl
    | some w => obtain ⟨q, rfl, _⟩ := some_owns H hq hqv; rfl
  | some v =>
    obtain ⟨p, rfl, hp'⟩ := some_owns H hp hpv
    cases b with
    | none => have := none_owns H hq hqv; subst this; rfl
    | some w =>
      obtain ⟨q, rfl, hq'⟩ := some_owns H hq hqv
      simp only [opEq, deref, Heap.read, hp', hq', Exec.ok_bind]

/-- A history that meets the hypotheses: `y` is changed after it was copied, then everything is destroyed. -/
example : (specRun (nothing : Env (Option Nat))
    ([.newVal 1 5, .new 3, .newMove 4 1] ++ .newCopy 0 4 :: [.write 4 6, .assign 3 2, .copyAssign 3 3, .assignElem 3 3, .moveAssign 4 3,
      .reset 3, .destroy 1, .destroy 4, .destroy 3, .destroy 0])).isSome := by decide +kernel

end C51

section C71
open Variant

/-- C71: `x = get<i>(y)` copies; `y` keeps its value. -/
def C71_statement : Prop := ∀ (V : Type) (moved : V → V) (ops : List (Op V)) (x y i : Nat) (v : V) (s s' : State V),
  x ≠ y → run moved State.start ops = .ok s → values s y = some (.holds i v) → step moved s (.elemAssign x y i) = .ok (true, s') →
  values s' y = some (.holds i v)

/-- The element is moved from: assigning a string held by one variant to another empties it. -/
theorem C71_violated : ¬ C71_statement := by
  intro h
  have := h (List Nat) (fun _ => []) [.new 0 [1], .new 1 [2]] 0 1 0 [2] _ _ (by decide) rfl rfl rfl
  simp [values, valueOf, Env.set, State.start] at this

/-- What holds: `x` gets the value and every other variable keeps its own. -/
theorem C71_others_partial {V : Type} (moved : V → V) (ops : List (Op V)) (x y i : Nat) (v : V) (σ : Env (Value V))
    (hs : specRun moved nothing ops = some σ) (hxy : x ≠ y) (hx : (σ x).isSome) (hy : σ y = some (.holds i v)) :
    ∃ s s', run moved State.start ops = .ok s ∧ step moved s (.elemAssign x y i) = .ok (true, s') ∧
      values s' x = some (.holds i v) ∧ values s' y = some (.holds i (moved v)) ∧
      ∀ z, z ≠ x → z ≠ y → values s' z = values s z := by
  obtain ⟨s, e, H, hv⟩ := run_ok moved inv_start (by rw [values_start]; exact hs)
  obtain ⟨a, ha⟩ := Option.isSome_iff_exists.mp hx
  obtain ⟨s', e', _, hv'⟩ := step_ok moved H (op := .elemAssign x y i) (b := true)
    (σ' := (σ.set y (some (.holds i (moved v)))).set x (some (.holds i v))) (by
      rw [hv]; simp only [spec, ha, hy]; rw [if_neg (by simp), if_neg hxy])
  refine ⟨s, s', e, e', by rw [hv', Env.set_same], by rw [hv', Env.set_other _ _ (Ne.symm hxy), Env.set_same], fun z h1 h2 => ?_⟩
  rw [hv', Env.set_other _ _ h1, Env.set_other _ _ h2, hv]

example : ∃ σ, specRun (fun _ => ([] : List Nat)) nothing [.new 0 [1], .new 1 [2]] = some σ ∧ (σ 0).isSome ∧ σ 1 = some (.holds 0 [2]) :=
  ⟨_, rfl, rfl, rfl⟩

end C71

end FastBer.Props
