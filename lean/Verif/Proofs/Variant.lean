import Verif.Spec.Variant
/-! # Ownership: every live block has exactly one owner -/
namespace FastBer

section Env
variable {α : Type}

theorem Env.set_same (e : Env α) (x : Nat) (a : Option α) : e.set x a x = a := by simp [Env.set]
theorem Env.set_other (e : Env α) {x y : Nat} (a : Option α) (h : y ≠ x) : e.set x a y = e y := by simp [Env.set, h]
theorem Env.set_set (e : Env α) (x : Nat) (a b : Option α) : (e.set x a).set x b = e.set x b := by
  funext y; simp only [Env.set]; split <;> rfl
theorem Env.set_comm (e : Env α) {x y : Nat} (a b : Option α) (h : x ≠ y) : (e.set x a).set y b = (e.set y b).set x a := by
  funext z
  by_cases h1 : z = x
  · subst h1; simp [Env.set, h]
  · simp [Env.set, h1]
theorem Env.set_self (e : Env α) {x : Nat} {a : Option α} (h : e x = a) : e.set x a = e := by
  funext y; simp only [Env.set]; split
  · subst_vars; rfl
  · rfl

end Env

section Owned
variable {α β : Type} (own : α → Option Nat) (ty : α → β → Prop)

/-- Every pointer a variable owns is to a live block of the right type, no block has two owners, none has no owner. -/
structure Owned (h : Heap β) (e : Env α) : Prop where
  live : ∀ x a p, e x = some a → own a = some p → ∃ b, h[p]? = some (some b) ∧ ty a b
  inj : ∀ x y a b p, e x = some a → e y = some b → own a = some p → own b = some p → x = y
  noleak : ∀ p b, h[p]? = some (some b) → ∃ x a, e x = some a ∧ own a = some p

/-- The value a variable owns. -/
def contentOf (h : Heap β) (a : α) : Option β := (own a).bind fun p => (h[p]?).join

variable {own ty} {h : Heap β} {e : Env α}

theorem Owned.lt (H : Owned own ty h e) {x a p} (hx : e x = some a) (hp : own a = some p) : p < h.length := by
  obtain ⟨b, hb, _⟩ := H.live x a p hx hp
  exact (List.getElem?_eq_some_iff.mp hb).1

theorem contentOf_some {a : α} {p : Nat} {b : β} (hp : own a = some p) (hb : h[p]? = some (some b)) :
    contentOf own h a = some b := by simp [contentOf, hp, hb]

theorem Owned.free (H : Owned own ty h e) {x a p} (hx : e x = some a) (hp : own a = some p) :
    h.free p = .ok (h.set p none) ∧
    (∀ o : Option α, (∀ a, o = some a → own a = none) → Owned own ty (h.set p none) (e.set x o)) ∧
    (∀ y b, y ≠ x → e y = some b → contentOf own (h.set p none) b = contentOf own h b) := by
  obtain ⟨b, hb, _⟩ := H.live x a p hx hp
  have hlt := H.lt hx hp
  refine ⟨by simp [Heap.free, hb], fun o ho => ⟨?_, ?_, ?_⟩, ?_⟩
  · intro y c q hy hq
    by_cases hyx : y = x
    · subst hyx; rw [Env.set_same] at hy; rw [ho c hy] at hq; cases hq
    · rw [Env.set_other _ _ hyx] at hy
      obtain ⟨b', hb', ht⟩ := H.live y c q hy hq
      have : q ≠ p := fun h => hyx (H.inj y x c a p hy hx (h ▸ hq) hp)
      exact ⟨b', by rw [List.getElem?_set_ne (by omega)]; exact hb', ht⟩
  · intro y z c d q hy hz hq hq'
    by_cases hyx : y = x
    · subst hyx; rw [Env.set_same] at hy; rw [ho c hy] at hq; cases hq
    · by_cases hzx : z = x
      · subst hzx; rw [Env.set_same] at hz; rw [ho d hz] at hq'; cases hq'
      · rw [Env.set_other _ _ hyx] at hy; rw [Env.set_other _ _ hzx] at hz
        exact H.inj y z c d q hy hz hq hq'
  · intro q b' hb'
    have hqp : q ≠ p := by
      rintro rfl
      rw [List.getElem?_set_self hlt] at hb'
      cases hb'
    rw [List.getElem?_set_ne (by omega)] at hb'
    obtain ⟨y, c, hy, hq⟩ := H.noleak q b' hb'
    have hyx : y ≠ x := by rintro rfl; rw [hx] at hy; cases hy; rw [hp] at hq; cases hq; exact hqp rfl
    exact ⟨y, c, by rw [Env.set_other _ _ hyx]; exact hy, hq⟩
  · intro y c hyx hy
    unfold contentOf
    cases hq : own c with
    | none => rfl
    | some q =>
      have : q ≠ p := fun h => hyx (H.inj y x c a p hy hx (h ▸ hq) hp)
      simp only [Option.bind_some]
      rw [List.getElem?_set_ne (by omega)]

theorem Owned.alloc (H : Owned own ty h e) {x : Nat} (hx : ∀ a, e x = some a → own a = none) {a' : α} {b : β}
    (ha : own a' = some h.length) (ht : ty a' b) :
    Owned own ty (h ++ [some b]) (e.set x (some a')) ∧
    (∀ y c, e y = some c → contentOf own (h ++ [some b]) c = contentOf own h c) ∧
    contentOf own (h ++ [some b]) a' = some b := by
  have hnew : (h ++ [some b])[h.length]? = some (some b) := by simp
  refine ⟨⟨?_, ?_, ?_⟩, ?_, contentOf_some ha hnew⟩
  · intro y c q hy hq
    by_cases hyx : y = x
    · subst hyx; rw [Env.set_same] at hy; cases hy; rw [ha] at hq; cases hq; exact ⟨b, hnew, ht⟩
    · rw [Env.set_other _ _ hyx] at hy
      obtain ⟨b', hb', ht'⟩ := H.live y c q hy hq
      exact ⟨b', by rw [List.getElem?_append_left (H.lt hy hq)]; exact hb', ht'⟩
  · intro y z c d q hy hz hq hq'
    by_cases hyx : y = x
    · by_cases hzx : z = x
      · omega
      · subst hyx; rw [Env.set_same] at hy; cases hy; rw [ha] at hq; cases hq
        rw [Env.set_other _ _ hzx] at hz
        have := H.lt hz hq'; omega
    · rw [Env.set_other _ _ hyx] at hy
      by_cases hzx : z = x
      · subst hzx; rw [Env.set_same] at hz; cases hz; rw [ha] at hq'; cases hq'
        have := H.lt hy hq; omega
      · rw [Env.set_other _ _ hzx] at hz
        exact H.inj y z c d q hy hz hq hq'
  · intro q b' hb'
    by_cases hq : q < h.length
    · rw [List.getElem?_append_left hq] at hb'
      obtain ⟨y, c, hy, hq'⟩ := H.noleak q b' hb'
      have hyx : y ≠ x := by rintro rfl; rw [hx c hy] at hq'; cases hq'
      exact ⟨y, c, by rw [Env.set_other _ _ hyx]; exact hy, hq'⟩
    · have : q < (h ++ [some b]).length := (List.getElem?_eq_some_iff.mp hb').1
      simp at this
      have : q = h.length := by omega
      subst this
      exact ⟨x, a', Env.set_same .., ha⟩
  · intro y c hy
    unfold contentOf
    cases hq : own c with
    | none => rfl
    | some q => simp only [Option.bind_some]; rw [List.getElem?_append_left (H.lt hy hq)]

theorem Owned.hollow (H : Owned own ty h e) {x : Nat} (hx : ∀ a, e x = some a → own a = none) {o : Option α}
    (ho : ∀ a, o = some a → own a = none) : Owned own ty h (e.set x o) := by
  refine ⟨?_, ?_, ?_⟩
  · intro y c q hy hq
    by_cases hyx : y = x
    · subst hyx; rw [Env.set_same] at hy; rw [ho c hy] at hq; cases hq
    · rw [Env.set_other _ _ hyx] at hy; exact H.live y c q hy hq
  · intro y z c d q hy hz hq hq'
    by_cases hyx : y = x
    · subst hyx; rw [Env.set_same] at hy; rw [ho c hy] at hq; cases hq
    · by_cases hzx : z = x
      · subst hzx; rw [Env.set_same] at hz; rw [ho d hz] at hq'; cases hq'
      · rw [Env.set_other _ _ hyx] at hy; rw [Env.set_other _ _ hzx] at hz
        exact H.inj y z c d q hy hz hq hq'
  · intro q b' hb'
    obtain ⟨y, c, hy, hq'⟩ := H.noleak q b' hb'
    have hyx : y ≠ x := by rintro rfl; rw [hx c hy] at hq'; cases hq'
    exact ⟨y, c, by rw [Env.set_other _ _ hyx]; exact hy, hq'⟩

/-- Exchanging two variables. -/
theorem Owned.swap (H : Owned own ty h e) {x y : Nat} {a b : α} (hx : e x = some a) (hy : e y = some b) :
    Owned own ty h ((e.set x (some b)).set y (some a)) := by
  by_cases hxy : x = y
  · subst hxy
    rw [hx] at hy; cases hy
    rw [Env.set_set, Env.set_self _ hx]; exact H
  have hperm : ∀ z, ((e.set x (some b)).set y (some a)) z = e (if z = x then y else if z = y then x else z) := by
    intro z
    by_cases h1 : z = y
    · subst h1; rw [Env.set_same]; rw [if_neg (by omega), if_pos rfl, hx]
    · rw [Env.set_other _ _ h1]
      by_cases h2 : z = x
      · subst h2; rw [Env.set_same, if_pos rfl, hy]
      · rw [Env.set_other _ _ h2, if_neg h2, if_neg h1]
  refine ⟨?_, ?_, ?_⟩
  · intro z c q hz hq
    rw [hperm] at hz
    exact H.live _ c q hz hq
  · intro z w c d q hz hw hq hq'
    rw [hperm] at hz hw
    have := H.inj _ _ c d q hz hw hq hq'
    revert this
    repeat' split
    all_goals omega
  · intro q b' hb'
    obtain ⟨z, c, hz, hq⟩ := H.noleak q b' hb'
    refine ⟨if z = x then y else if z = y then x else z, c, ?_, hq⟩
    rw [hperm, ← hz]
    congr 1
    repeat' split
    all_goals omega

/-- Moving out of `y` into `x`, which owns nothing. -/
theorem Owned.move (H : Owned own ty h e) {x y : Nat} (hxy : x ≠ y) (hx : ∀ a, e x = some a → own a = none) {o o' : α}
    (hy : e y = some o) (ho' : own o' = none) : Owned own ty h ((e.set x (some o)).set y (some o')) := by
  refine ⟨?_, ?_, ?_⟩
  · intro z c q hz hq
    by_cases h1 : z = y
    · subst h1; rw [Env.set_same] at hz; cases hz; rw [ho'] at hq; cases hq
    · rw [Env.set_other _ _ h1] at hz
      by_cases h2 : z = x
      · subst h2; rw [Env.set_same] at hz; cases hz; exact H.live y _ q hy hq
      · rw [Env.set_other _ _ h2] at hz; exact H.live z c q hz hq
  · intro z w c d q hz hw hq hq'
    by_cases h1 : z = y
    · subst h1; rw [Env.set_same] at hz; cases hz; rw [ho'] at hq; cases hq
    · by_cases h2 : w = y
      · subst h2; rw [Env.set_same] at hw; cases hw; rw [ho'] at hq'; cases hq'
      · rw [Env.set_other _ _ h1] at hz; rw [Env.set_other _ _ h2] at hw
        by_cases h3 : z = x
        · by_cases h4 : w = x
          · omega
          · subst h3; rw [Env.set_same] at hz; cases hz
            rw [Env.set_other _ _ h4] at hw
            exact absurd (H.inj w y d _ q hw hy hq' hq) h2
        · rw [Env.set_other _ _ h3] at hz
          by_cases h4 : w = x
          · subst h4; rw [Env.set_same] at hw; cases hw
            exact absurd (H.inj z y c _ q hz hy hq hq') h1
          · rw [Env.set_other _ _ h4] at hw
            exact H.inj z w c d q hz hw hq hq'
  · intro q b' hb'
    obtain ⟨z, c, hz, hq⟩ := H.noleak q b' hb'
    by_cases h1 : z = y
    · subst h1; rw [hy] at hz; cases hz
      exact ⟨x, _, by rw [Env.set_other _ _ hxy, Env.set_same], hq⟩
    · have h2 : z ≠ x := by rintro rfl; rw [hx c hz] at hq; cases hq
      exact ⟨z, c, by rw [Env.set_other _ _ h1, Env.set_other _ _ h2]; exact hz, hq⟩

theorem Owned.write (H : Owned own ty h e) {x a p} (hx : e x = some a) (hp : own a = some p) {b : β} (ht : ty a b) :
    h.write p b = .ok (h.set p (some b)) ∧ Owned own ty (h.set p (some b)) e ∧
    (∀ y c, y ≠ x → e y = some c → contentOf own (h.set p (some b)) c = contentOf own h c) ∧
    contentOf own (h.set p (some b)) a = some b := by
  obtain ⟨b0, hb0, _⟩ := H.live x a p hx hp
  have hlt := H.lt hx hp
  have hnew : (h.set p (some b))[p]? = some (some b) := List.getElem?_set_self hlt
  refine ⟨by simp [Heap.write, hb0], ⟨?_, H.inj, ?_⟩, ?_, contentOf_some hp hnew⟩
  · intro y c q hy hq
    by_cases hqp : q = p
    · subst hqp
      have := H.inj y x c a q hy hx hq hp
      subst this
      rw [hx] at hy; cases hy
      exact ⟨b, hnew, ht⟩
    · obtain ⟨b', hb', ht'⟩ := H.live y c q hy hq
      exact ⟨b', by rw [List.getElem?_set_ne (by omega)]; exact hb', ht'⟩
  · intro q b' hb'
    by_cases hqp : q = p
    · subst hqp; exact ⟨x, a, hx, hp⟩
    · rw [List.getElem?_set_ne (by omega)] at hb'
      exact H.noleak q b' hb'
  · intro y c hyx hy
    unfold contentOf
    cases hq : own c with
    | none => rfl
    | some q =>
      have : q ≠ p := fun h => hyx (H.inj y x c a p hy hx (h ▸ hq) hp)
      simp only [Option.bind_some]
      rw [List.getElem?_set_ne (by omega)]

theorem Owned.noLive (H : Owned own ty h e) (hall : ∀ x a, e x = some a → own a = none) :
    (h.filter Option.isSome).length = 0 := by
  rw [List.length_eq_zero_iff, List.filter_eq_nil_iff]
  intro o ho hs
  obtain ⟨p, hp⟩ := List.getElem?_of_mem ho
  obtain ⟨b, rfl⟩ := Option.isSome_iff_exists.mp hs
  obtain ⟨x, a, hx, ha⟩ := H.noleak p b hp
  rw [hall x a hx] at ha; cases ha

end Owned

namespace Variant
variable {V : Type}

/-- The pointer a variant is responsible for. -/
def own (v : Var) : Option Nat := if v.index.isSome then v.data else none

/-- The block has the type the index says. -/
def typed (v : Var) (b : Block V) : Prop := v.index = some b.1

abbrev Inv (s : State V) : Prop := Owned own typed s.heap s.env

theorem valueOf_eq (h : Heap (Block V)) (v : Var) : valueOf h v =
    match contentOf own h v with
    | some b => .holds (v.index.getD 0) b.2
    | none => .hollow v.index := by
  obtain ⟨i, d⟩ := v
  cases i with
  | none => simp [valueOf, contentOf, own]
  | some i =>
    cases d with
    | none => simp [valueOf, contentOf, own]
    | some p =>
      simp only [valueOf, contentOf, own, Option.isSome_some, if_true, Option.bind_some, Option.getD_some]
      cases h[p]? with
      | none => rfl
      | some o => cases o <;> rfl

theorem valueOf_congr {h h' : Heap (Block V)} {v : Var} (e : contentOf own h' v = contentOf own h v) :
    valueOf h' v = valueOf h v := by rw [valueOf_eq, valueOf_eq, e]

theorem valueOf_hollow (h : Heap (Block V)) {v : Var} (e : own v = none) : valueOf h v = .hollow v.index := by
  rw [valueOf_eq, show contentOf own h v = none by simp [contentOf, e]]

theorem values_at (s : State V) (x : Nat) : values s x = (s.env x).map (valueOf s.heap) := rfl

theorem values_none {s : State V} {x : Nat} (h : values s x = none) : s.env x = none := by
  rw [values_at] at h; exact Option.map_eq_none_iff.mp h

theorem values_some {s : State V} {x : Nat} {a : Value V} (h : values s x = some a) :
    ∃ v, s.env x = some v ∧ valueOf s.heap v = a := by
  rw [values_at] at h; exact Option.map_eq_some_iff.mp h

/-- A variable that holds something owns the block with it. -/
theorem holds_owns {s : State V} (H : Inv s) {x : Nat} {v : Var} {i : Nat} {w : V} (hx : s.env x = some v)
    (hv : valueOf s.heap v = .holds i w) :
    ∃ p, v = ⟨some i, some p⟩ ∧ s.heap[p]? = some (some (i, w)) := by
  obtain ⟨j, d⟩ := v
  cases j with
  | none => simp [valueOf] at hv
  | some j =>
    cases d with
    | none => simp [valueOf] at hv
    | some p =>
      obtain ⟨b, hb, ht⟩ := H.live x _ p hx (by simp [own])
      simp only [valueOf, hb, Value.holds.injEq] at hv
      simp only [typed, Option.some.injEq] at ht
      obtain ⟨rfl, rfl⟩ := hv
      refine ⟨p, rfl, ?_⟩
      rw [hb, ht]

/-- A variable that holds nothing owns nothing. -/
theorem hollow_owns {s : State V} (H : Inv s) {x : Nat} {v : Var} {i : Option Nat} (hx : s.env x = some v)
    (hv : valueOf s.heap v = .hollow i) : v.index = i ∧ own v = none := by
  obtain ⟨j, d⟩ := v
  cases j with
  | none =>
    simp only [valueOf, Value.hollow.injEq] at hv
    exact ⟨hv, rfl⟩
  | some j =>
    cases d with
    | none =>
      simp only [valueOf, Value.hollow.injEq] at hv
      exact ⟨hv, rfl⟩
    | some p =>
      obtain ⟨b, hb, ht⟩ := H.live x _ p hx (by simp [own])
      simp [valueOf, hb] at hv

theorem index_eq {s : State V} (H : Inv s) {x : Nat} {v : Var} (hx : s.env x = some v) :
    (valueOf s.heap v).index = v.index := by
  cases hv : valueOf s.heap v with
  | holds i w => obtain ⟨p, rfl, _⟩ := holds_owns H hx hv; rfl
  | hollow i => exact (hollow_owns H hx hv).1.symm

theorem read_ok {h : Heap (Block V)} {p : Nat} {b : Block V} (hb : h[p]? = some (some b)) : h.read p = .ok b := by
  simp [Heap.read, hb]

theorem element_ok {h : Heap (Block V)} {p i : Nat} {w : V} (hb : h[p]? = some (some (i, w))) :
    element h ⟨some i, some p⟩ i = .ok (p, w) := by
  simp [element, read_ok hb]

/-- Values after one variable was replaced and the other contents stayed. -/
theorem values_set {s : State V} {h' : Heap (Block V)} {x : Nat} {o : Option Var}
    (hc : ∀ y c, y ≠ x → s.env y = some c → contentOf own h' c = contentOf own s.heap c) :
    values ⟨h', s.env.set x o⟩ = (values s).set x (o.map (valueOf h')) := by
  funext y
  by_cases hyx : y = x
  · subst hyx; simp only [values_at, Env.set_same]
  · simp only [values_at, Env.set_other _ _ hyx]
    cases hy : s.env y with
    | none => rfl
    | some c => simp only [Option.map_some, Option.some.injEq]; exact valueOf_congr (hc y c hyx hy)

theorem deleteOld_ok {s : State V} (H : Inv s) {x : Nat} {v : Var} (hx : s.env x = some v) :
    ∃ h', deleteOld s.heap v = .ok h' ∧ ∀ o : Option Var, (∀ a, o = some a → own a = none) →
      Inv ⟨h', s.env.set x o⟩ ∧ values ⟨h', s.env.set x o⟩ = (values s).set x (o.map fun a => .hollow a.index) := by
  cases ho : own v with
  | none =>
    refine ⟨s.heap, ?_, fun o h => ?_⟩
    · obtain ⟨i, d⟩ := v
      cases i with
      | none => simp [deleteOld]
      | some i =>
        cases d with
        | none => simp [deleteOld]
        | some p => simp [own] at ho
    · refine ⟨H.hollow (fun a ha => by rw [hx] at ha; cases ha; exact ho) h, ?_⟩
      rw [values_set (s := s) (fun _ _ _ _ => rfl)]
      congr 1
      cases o with
      | none => rfl
      | some a => simp only [Option.map_some]; rw [valueOf_hollow _ (h a rfl)]
  | some p =>
    obtain ⟨h1, h2, h3⟩ := H.free hx ho
    obtain ⟨b, hb, ht⟩ := H.live x v p hx ho
    refine ⟨s.heap.set p none, ?_, fun o h => ⟨h2 o h, ?_⟩⟩
    · obtain ⟨i, d⟩ := v
      cases i with
      | none => simp [own] at ho
      | some i =>
        simp only [own, Option.isSome_some, if_true] at ho
        subst ho
        simp only [typed, Option.some.injEq] at ht
        subst ht
        obtain ⟨j, w⟩ := b
        simp only [deleteOld, element_ok hb, Exec.ok_bind]
        exact h1
    · rw [values_set h3]
      congr 1
      cases o with
      | none => rfl
      | some a => simp only [Option.map_some]; rw [valueOf_hollow _ (h a rfl)]

theorem alloc_ok {s : State V} (H : Inv s) {x : Nat} (hx : ∀ a, s.env x = some a → own a = none) (i : Nat) (w : V) :
    Inv ⟨s.heap ++ [some (i, w)], s.env.set x (some ⟨some i, some s.heap.length⟩)⟩ ∧
    values ⟨s.heap ++ [some (i, w)], s.env.set x (some ⟨some i, some s.heap.length⟩)⟩ = (values s).set x (some (.holds i w)) := by
  obtain ⟨h1, h2, h3⟩ := H.alloc hx (a' := ⟨some i, some s.heap.length⟩) (b := (i, w)) rfl rfl
  refine ⟨h1, ?_⟩
  rw [values_set (fun y c _ hy => h2 y c hy)]
  congr 1
  rw [Option.map_some, valueOf_eq, h3]; rfl

/-- Delete the old element, then allocate a new one. -/
theorem replace_ok {s : State V} (H : Inv s) {x : Nat} {v : Var} (hx : s.env x = some v) (i : Nat) (w : V) :
    ∃ h', deleteOld s.heap v = .ok h' ∧
      Inv ⟨h' ++ [some (i, w)], s.env.set x (some ⟨some i, some h'.length⟩)⟩ ∧
      values ⟨h' ++ [some (i, w)], s.env.set x (some ⟨some i, some h'.length⟩)⟩ = (values s).set x (some (.holds i w)) := by
  obtain ⟨h', e, hh⟩ := deleteOld_ok H hx
  obtain ⟨h1, h2⟩ := hh none (fun _ h => by cases h)
  refine ⟨h', e, ?_⟩
  obtain ⟨h3, h4⟩ := alloc_ok h1 (x := x) (fun a ha => by simp only [Env.set_same] at ha; cases ha) i w
  simp only [Env.set_set] at h3 h4
  refine ⟨h3, ?_⟩
  rw [h4, h2, Env.set_set]

theorem values_set2 {s : State V} {x y : Nat} {a b : Option Var} :
    values ⟨s.heap, (s.env.set x a).set y b⟩ = ((values s).set x (a.map (valueOf s.heap))).set y (b.map (valueOf s.heap)) := by
  rw [values_set (s := ⟨s.heap, s.env.set x a⟩) (fun _ _ _ _ => rfl), values_set (s := s) (fun _ _ _ _ => rfl)]

/-- One operation inside the preconditions of `spec`. -/
theorem step_ok (moved : V → V) {s : State V} (H : Inv s) {op : Op V} {b : Bool} {σ' : Env (Value V)}
    (hs : spec moved (values s) op = some (b, σ')) :
    ∃ s', step moved s op = .ok (b, s') ∧ Inv s' ∧ values s' = σ' := by
  have hfresh : ∀ {x}, values s x = none → fresh s x = .ok () := fun h => by simp [fresh, values_none h]
  have hlook : ∀ {x v}, s.env x = some v → lookup s x = .ok v := fun h => by simp [lookup, h]
  have hnone : ∀ {x}, values s x = none → ∀ a, s.env x = some a → own a = none :=
    fun h a ha => by rw [values_none h] at ha; cases ha
  cases op with
  | new x v =>
    simp only [spec] at hs
    cases hx : values s x with
    | some _ => rw [hx] at hs; cases hs
    | none =>
      rw [hx] at hs; cases hs
      obtain ⟨h1, h2⟩ := alloc_ok H (hnone hx) 0 v
      exact ⟨_, by simp only [step, hfresh hx, Exec.ok_bind]; rfl, h1, h2⟩
  | newVal x i v throws =>
    simp only [spec] at hs
    cases hx : values s x with
    | some _ => rw [hx] at hs; cases hs
    | none =>
      rw [hx] at hs
      cases throws with
      | true =>
        cases hs
        exact ⟨s, by simp [step, hfresh hx], H, rfl⟩
      | false =>
        cases hs
        obtain ⟨h1, h2⟩ := alloc_ok H (hnone hx) i v
        exact ⟨_, by simp only [step, hfresh hx, Exec.ok_bind, Bool.false_eq_true, if_false]; rfl, h1, h2⟩
  | newCopy x y throws =>
    simp only [spec] at hs
    cases hx : values s x with
    | some _ => rw [hx] at hs; simp at hs
    | none =>
      rw [hx] at hs
      cases hy : values s y with
      | none => rw [hy] at hs; simp at hs
      | some a =>
        rw [hy] at hs
        obtain ⟨o, ho, hv⟩ := values_some hy
        cases a with
        | holds i w =>
          obtain ⟨p, rfl, hp⟩ := holds_owns H ho hv
          simp only at hs
          cases throws with
          | true =>
            cases hs
            exact ⟨s, by simp [step, hfresh hx, hlook ho, element_ok hp], H, rfl⟩
          | false =>
            cases hs
            obtain ⟨h1, h2⟩ := alloc_ok H (hnone hx) i w
            exact ⟨_, by simp only [step, hfresh hx, hlook ho, Exec.ok_bind, element_ok hp, Bool.false_eq_true, if_false]; rfl, h1, h2⟩
        | hollow j =>
          cases j with
          | some j => simp at hs
          | none =>
            simp only at hs
            cases hs
            obtain ⟨h1, _⟩ := hollow_owns H ho hv
            exact ⟨s, by simp [step, hfresh hx, hlook ho, h1], H, rfl⟩
  | newMove x y =>
    simp only [spec] at hs
    cases hx : values s x with
    | some _ => rw [hx] at hs; simp at hs
    | none =>
      rw [hx] at hs
      cases hy : values s y with
      | none => rw [hy] at hs; simp at hs
      | some a =>
        rw [hy] at hs
        cases hs
        obtain ⟨o, ho, hv⟩ := values_some hy
        have hxy : x ≠ y := by rintro rfl; rw [hx] at hy; cases hy
        refine ⟨⟨s.heap, (s.env.set x (some o)).set y (some ⟨o.index, none⟩)⟩, by simp only [step, hfresh hx, hlook ho, Exec.ok_bind],
          H.move hxy (hnone hx) ho (o' := ⟨o.index, none⟩) (by simp [own]), ?_⟩
        rw [values_set2, Option.map_some, Option.map_some, hv, valueOf_hollow _ (by simp [own]), ← hv, index_eq H ho]
  | destroy x =>
    simp only [spec] at hs
    cases hx : values s x with
    | none => rw [hx] at hs; cases hs
    | some a =>
      rw [hx] at hs; cases hs
      obtain ⟨o, ho, hv⟩ := values_some hx
      obtain ⟨h', e, hh⟩ := deleteOld_ok H ho
      obtain ⟨h1, h2⟩ := hh none (fun _ h => by cases h)
      exact ⟨⟨h', s.env.set x none⟩, by simp only [step, hlook ho, Exec.ok_bind, e], h1, h2⟩
  | copyAssign x y throws =>
    simp only [spec] at hs
    by_cases hc : x = y ∨ throws = true
    · rw [if_pos hc] at hs; cases hs
    rw [if_neg hc] at hs
    have hxy : x ≠ y := fun h => hc (.inl h)
    have hth : throws = false := by cases throws with | false => rfl | true => exact absurd (.inr rfl) hc
    subst hth
    cases hx : values s x with
    | none => rw [hx] at hs; simp at hs
    | some a =>
      rw [hx] at hs
      obtain ⟨t, ht, hv⟩ := values_some hx
      cases hy : values s y with
      | none => rw [hy] at hs; simp at hs
      | some b' =>
        rw [hy] at hs
        obtain ⟨o, ho, hw⟩ := values_some hy
        cases b' with
        | holds i w =>
          simp only at hs
          cases hs
          obtain ⟨p, rfl, hp⟩ := holds_owns H ho hw
          obtain ⟨h', e, h1, h2⟩ := replace_ok H ht i w
          -- the source block survives the deletion
          have hp' : h'[p]? = some (some (i, w)) := by
            obtain ⟨h'', e'', hh⟩ := deleteOld_ok H ht
            rw [e] at e''; cases e''
            obtain ⟨H', hvals⟩ := hh none (fun _ h => by cases h)
            have : values ⟨h', s.env.set x none⟩ y = some (.holds i w) := by
              rw [hvals, Env.set_other _ _ (Ne.symm hxy)]; exact hy
            obtain ⟨o', ho', hv'⟩ := values_some this
            simp only [Env.set_other _ _ (Ne.symm hxy)] at ho'
            rw [ho] at ho'; cases ho'
            obtain ⟨q, hq, hq'⟩ := holds_owns H' (x := y) (by simp only [Env.set_other _ _ (Ne.symm hxy)]; exact ho) hv'
            cases hq; exact hq'
          refine ⟨_, ?_, h1, h2⟩
          simp only [step, hlook ht, hlook ho, Exec.ok_bind, e, if_neg hxy, element_ok hp', Bool.false_eq_true, if_false]
          rfl
        | hollow j =>
          cases j with
          | some j => simp at hs
          | none =>
            simp only at hs
            cases hs
            obtain ⟨h1, _⟩ := hollow_owns H ho hw
            obtain ⟨h', e, hh⟩ := deleteOld_ok H ht
            obtain ⟨h2, h3⟩ := hh (some ⟨none, t.data⟩) (fun a ha => by cases ha; rfl)
            refine ⟨⟨h', s.env.set x (some ⟨none, t.data⟩)⟩, ?_, h2, h3⟩
            simp only [step, hlook ht, hlook ho, Exec.ok_bind, e, if_neg hxy, h1]
  | moveAssign x y =>
    simp only [spec] at hs
    cases hx : values s x with
    | none => rw [hx] at hs; simp at hs
    | some a =>
      rw [hx] at hs
      obtain ⟨t, ht, hv⟩ := values_some hx
      cases hy : values s y with
      | none => rw [hy] at hs; simp at hs
      | some b' =>
        rw [hy] at hs
        cases hs
        obtain ⟨o, ho, hw⟩ := values_some hy
        obtain ⟨h', e, hh⟩ := deleteOld_ok H ht
        refine ⟨⟨h', (s.env.set x (some o)).set y (some ⟨o.index, none⟩)⟩,
          by simp only [step, hlook ht, hlook ho, Exec.ok_bind, e], ?_⟩
        by_cases hxy : x = y
        · subst hxy
          obtain ⟨h2, h3⟩ := hh (some ⟨o.index, none⟩) (fun a ha => by cases ha; simp [own])
          rw [Env.set_set]
          refine ⟨h2, ?_⟩
          rw [h3, Env.set_set, ← hw, index_eq H ho]; rfl
        · obtain ⟨h2, h3⟩ := hh none (fun _ h => by cases h)
          have ho' : (s.env.set x none) y = some o := by rw [Env.set_other _ _ (Ne.symm hxy)]; exact ho
          have h4 := h2.move hxy (fun a ha => by simp only [Env.set_same] at ha; cases ha) ho' (o' := ⟨o.index, none⟩) (by simp [own])
          rw [Env.set_set] at h4
          refine ⟨h4, ?_⟩
          have h5 := values_set2 (s := ⟨h', s.env.set x none⟩) (x := x) (y := y) (a := some o) (b := some ⟨o.index, none⟩)
          simp only [Env.set_set] at h5
          rw [h5, h3, Env.set_set]
          have h6 : valueOf h' o = b' := by
            have : values ⟨h', s.env.set x none⟩ y = some b' := by
              rw [h3, Env.set_other _ _ (Ne.symm hxy)]; exact hy
            simp only [values_at, ho', Option.map_some, Option.some.injEq] at this
            exact this
          rw [Option.map_some, Option.map_some, h6, valueOf_hollow _ (by simp [own]), ← hw, index_eq H ho]
  | valAssign x i v throws =>
    simp only [spec] at hs
    cases hx : values s x with
    | none => rw [hx] at hs; cases hs
    | some a =>
      rw [hx] at hs
      obtain ⟨t, ht, hv⟩ := values_some hx
      cases throws with
      | true => simp at hs
      | false =>
        cases hs
        obtain ⟨h', e, h1, h2⟩ := replace_ok H ht i v
        exact ⟨_, by simp only [step, hlook ht, Exec.ok_bind, e, Bool.false_eq_true, if_false]; rfl, h1, h2⟩
  | elemAssign x y i =>
    simp only [spec] at hs
    cases hx : values s x with
    | none => rw [hx] at hs; simp at hs
    | some a =>
      rw [hx] at hs
      obtain ⟨t, ht, hv⟩ := values_some hx
      cases hy : values s y with
      | none => rw [hy] at hs; simp at hs
      | some b' =>
        rw [hy] at hs
        obtain ⟨o, ho, hw⟩ := values_some hy
        cases b' with
        | holds j w =>
          obtain ⟨p, rfl, hp⟩ := holds_owns H ho hw
          simp only at hs
          by_cases hji : j = i
          · subst hji
            rw [if_neg (by simp)] at hs
            by_cases hxy : x = y
            · rw [if_pos hxy] at hs; cases hs
            rw [if_neg hxy] at hs
            cases hs
            obtain ⟨h', e, hh⟩ := deleteOld_ok H ht
            obtain ⟨H2, v2⟩ := hh none (fun _ h => by cases h)
            have ho' : (s.env.set x none) y = some ⟨some j, some p⟩ := by rw [Env.set_other _ _ (Ne.symm hxy)]; exact ho
            have hp' : h'[p]? = some (some (j, w)) := by
              have : values ⟨h', s.env.set x none⟩ y = some (.holds j w) := by
                rw [v2, Env.set_other _ _ (Ne.symm hxy)]; exact hy
              simp only [values_at, ho', Option.map_some, Option.some.injEq] at this
              obtain ⟨q, hq, hq'⟩ := holds_owns H2 ho' this
              cases hq; exact hq'
            obtain ⟨w1, w2, w3, w4⟩ := H2.write ho' (p := p) (by simp [own]) (b := (j, moved w)) rfl
            have v3 : values ⟨h'.set p (some (j, moved w)), s.env.set x none⟩ =
                (values ⟨h', s.env.set x none⟩).set y (some (.holds j (moved w))) := by
              have := values_set (s := ⟨h', s.env.set x none⟩) (h' := h'.set p (some (j, moved w))) (x := y)
                (o := some ⟨some j, some p⟩) w3
              rw [Env.set_self _ ho'] at this
              rw [this, Option.map_some, valueOf_eq, w4]; rfl
            obtain ⟨h1, h2⟩ := alloc_ok (s := ⟨h'.set p (some (j, moved w)), s.env.set x none⟩) w2 (x := x) (fun a ha => by simp only [Env.set_same] at ha; cases ha) j w
            simp only [Env.set_set] at h1 h2
            refine ⟨_, ?_, h1, ?_⟩
            · simp only [step, hlook ht, hlook ho, Exec.ok_bind, element_ok hp, e, read_ok hp', w1]
              rw [if_neg (by simp)]; rfl
            · rw [h2, v3, v2, Env.set_comm _ _ _ hxy, Env.set_set]
          · rw [if_pos hji] at hs; cases hs
            refine ⟨s, ?_, H, rfl⟩
            simp only [step, hlook ht, hlook ho, Exec.ok_bind]
            rw [if_pos (by simpa using hji)]
        | hollow j =>
          simp only at hs
          by_cases hji : j = some i
          · rw [if_neg (by simpa using hji)] at hs; cases hs
          · rw [if_pos hji] at hs; cases hs
            obtain ⟨h1, _⟩ := hollow_owns H ho hw
            refine ⟨s, ?_, H, rfl⟩
            simp only [step, hlook ht, hlook ho, Exec.ok_bind]
            rw [if_pos (by rw [h1]; exact hji)]
  | emplaceType x i v throws =>
    simp only [spec] at hs
    cases hx : values s x with
    | none => rw [hx] at hs; cases hs
    | some a =>
      rw [hx] at hs
      obtain ⟨t, ht, hv⟩ := values_some hx
      cases throws with
      | true => simp at hs
      | false =>
        cases hs
        obtain ⟨h', e, h1, h2⟩ := replace_ok H ht i v
        exact ⟨_, by simp only [step, hlook ht, Exec.ok_bind, e, Bool.false_eq_true, if_false]; rfl, h1, h2⟩
  | emplaceIndex x i v throws =>
    simp only [spec] at hs
    cases hx : values s x with
    | none => rw [hx] at hs; cases hs
    | some a =>
      rw [hx] at hs
      obtain ⟨t, ht, hv⟩ := values_some hx
      cases throws with
      | true =>
        cases hs
        obtain ⟨h', e, hh⟩ := deleteOld_ok H ht
        obtain ⟨h2, h3⟩ := hh (some ⟨none, t.data⟩) (fun a ha => by cases ha; rfl)
        exact ⟨_, by simp only [step, hlook ht, Exec.ok_bind, e, if_true], h2, h3⟩
      | false =>
        cases hs
        obtain ⟨h', e, h1, h2⟩ := replace_ok H ht i v
        exact ⟨_, by simp only [step, hlook ht, Exec.ok_bind, e, Bool.false_eq_true, if_false]; rfl, h1, h2⟩
  | swap x y =>
    simp only [spec] at hs
    cases hx : values s x with
    | none => rw [hx] at hs; simp at hs
    | some a =>
      rw [hx] at hs
      obtain ⟨t, ht, hv⟩ := values_some hx
      cases hy : values s y with
      | none => rw [hy] at hs; simp at hs
      | some b' =>
        rw [hy] at hs
        cases hs
        obtain ⟨o, ho, hw⟩ := values_some hy
        refine ⟨⟨s.heap, (s.env.set x (some o)).set y (some t)⟩, by simp only [step, hlook ht, hlook ho, Exec.ok_bind], H.swap ht ho, ?_⟩
        rw [values_set2, Option.map_some, Option.map_some, hv, hw]
  | write x i v =>
    simp only [spec] at hs
    cases hx : values s x with
    | none => rw [hx] at hs; cases hs
    | some a =>
      rw [hx] at hs
      obtain ⟨t, ht, hv⟩ := values_some hx
      cases a with
      | holds j w =>
        obtain ⟨p, rfl, hp⟩ := holds_owns H ht hv
        simp only at hs
        by_cases hji : j = i
        · subst hji
          rw [if_neg (by simp)] at hs; cases hs
          obtain ⟨w1, w2, w3, w4⟩ := H.write ht (p := p) (by simp [own]) (b := (j, v)) rfl
          refine ⟨⟨s.heap.set p (some (j, v)), s.env⟩, ?_, w2, ?_⟩
          · simp only [step, hlook ht, Exec.ok_bind, element_ok hp, w1]
            rw [if_neg (by simp)]
          · have := values_set (s := s) (h' := s.heap.set p (some (j, v))) (x := x) (o := some ⟨some j, some p⟩) w3
            rw [Env.set_self _ ht] at this
            rw [this, Option.map_some, valueOf_eq, w4]; rfl
        · rw [if_pos hji] at hs; cases hs
          refine ⟨s, ?_, H, rfl⟩
          simp only [step, hlook ht, Exec.ok_bind]
          rw [if_pos (by simpa using hji)]
      | hollow j =>
        simp only at hs
        by_cases hji : j = some i
        · rw [if_neg (by simpa using hji)] at hs; cases hs
        · rw [if_pos hji] at hs; cases hs
          obtain ⟨h1, _⟩ := hollow_owns H ht hv
          refine ⟨s, ?_, H, rfl⟩
          simp only [step, hlook ht, Exec.ok_bind]
          rw [if_pos (by rw [h1]; exact hji)]

theorem inv_start : Inv (State.start : State V) :=
  ⟨fun x a p h => by simp [State.start] at h, fun x y a b p h => by simp [State.start] at h,
    fun p b h => by simp [State.start] at h⟩

theorem run_ok (moved : V → V) {s : State V} (H : Inv s) {ops : List (Op V)} {σ' : Env (Value V)}
    (hs : specRun moved (values s) ops = some σ') : ∃ s', run moved s ops = .ok s' ∧ Inv s' ∧ values s' = σ' := by
  induction ops generalizing s with
  | nil => cases hs; exact ⟨s, rfl, H, rfl⟩
  | cons op ops ih =>
    simp only [specRun] at hs
    cases h1 : spec moved (values s) op with
    | none => rw [h1] at hs; cases hs
    | some r =>
      obtain ⟨b, σ1⟩ := r
      rw [h1] at hs
      obtain ⟨s1, e1, H1, v1⟩ := step_ok moved H h1
      simp only at hs
      rw [← v1] at hs
      obtain ⟨s', e', H', v'⟩ := ih H1 hs
      exact ⟨s', by simp only [run, e1, Exec.ok_bind]; exact e', H', v'⟩

end Variant

namespace DynOpt
variable {V : Type}

abbrev Inv (s : State V) : Prop := Owned (fun o : Option Nat => o) (fun _ (_ : V) => True) s.heap s.env

theorem valueOf_eq (h : Heap V) (o : Option Nat) : valueOf h o = contentOf (fun o : Option Nat => o) h o := by
  cases o <;> rfl

theorem values_at (s : State V) (x : Nat) : values s x = (s.env x).map (valueOf s.heap) := rfl

theorem values_none {s : State V} {x : Nat} (h : values s x = none) : s.env x = none := by
  rw [values_at] at h; exact Option.map_eq_none_iff.mp h

theorem values_some {s : State V} {x : Nat} {a : Option V} (h : values s x = some a) :
    ∃ v, s.env x = some v ∧ valueOf s.heap v = a := by
  rw [values_at] at h; exact Option.map_eq_some_iff.mp h

theorem some_owns {s : State V} (H : Inv s) {x : Nat} {o : Option Nat} {w : V} (hx : s.env x = some o)
    (hv : valueOf s.heap o = some w) : ∃ p, o = some p ∧ s.heap[p]? = some (some w) := by
  cases o with
  | none => cases hv
  | some p =>
    obtain ⟨b, hb, _⟩ := H.live x _ p hx rfl
    refine ⟨p, rfl, ?_⟩
    simp only [valueOf, hb, Option.join_some, Option.some.injEq] at hv
    rw [hb, hv]

theorem none_owns {s : State V} (H : Inv s) {x : Nat} {o : Option Nat} (hx : s.env x = some o)
    (hv : valueOf s.heap o = none) : o = none := by
  cases o with
  | none => rfl
  | some p =>
    obtain ⟨b, hb, _⟩ := H.live x _ p hx rfl
    simp [valueOf, hb] at hv

theorem values_set {s : State V} {h' : Heap V} {x : Nat} {o : Option (Option Nat)}
    (hc : ∀ y c, y ≠ x → s.env y = some c → contentOf (fun o : Option Nat => o) h' c = contentOf (fun o : Option Nat => o) s.heap c) :
    values ⟨h', s.env.set x o⟩ = (values s).set x (o.map (valueOf h')) := by
  funext y
  by_cases hyx : y = x
  · subst hyx; simp only [values_at, Env.set_same]
  · simp only [values_at, Env.set_other _ _ hyx]
    cases hy : s.env y with
    | none => rfl
    | some c => simp only [Option.map_some, Option.some.injEq, valueOf_eq]; exact hc y c hyx hy

theorem values_set2 {s : State V} {x y : Nat} {a b : Option (Option Nat)} :
    values ⟨s.heap, (s.env.set x a).set y b⟩ = ((values s).set x (a.map (valueOf s.heap))).set y (b.map (valueOf s.heap)) := by
  rw [values_set (s := ⟨s.heap, s.env.set x a⟩) (fun _ _ _ _ => rfl), values_set (s := s) (fun _ _ _ _ => rfl)]

/-- The old block is deleted, whatever was allocated before. -/
theorem replace_ok {s : State V} (H : Inv s) {x : Nat} {o : Option Nat} (hx : s.env x = some o) :
    ∃ h', replace s.heap o = .ok h' ∧ ∀ n : Option (Option Nat), n.join = none →
      Inv ⟨h', s.env.set x n⟩ ∧ values ⟨h', s.env.set x n⟩ = (values s).set x (n.map fun _ => none) := by
  have hn : ∀ n : Option (Option Nat), n.join = none → ∀ a, n = some a → a = none := by
    rintro n h a rfl; exact h
  have hmap : ∀ (h : Heap V) (n : Option (Option Nat)), n.join = none → n.map (valueOf h) = n.map fun _ => none := by
    intro h n hj
    cases n with
    | none => rfl
    | some a => rw [hn _ hj a rfl]; rfl
  cases o with
  | none =>
    refine ⟨s.heap, rfl, fun n h => ⟨H.hollow (fun a ha => by rw [hx] at ha; cases ha; rfl) (hn n h), ?_⟩⟩
    rw [values_set (s := s) (fun _ _ _ _ => rfl), hmap _ _ h]
  | some p =>
    obtain ⟨h1, h2, h3⟩ := H.free hx (p := p) rfl
    refine ⟨s.heap.set p none, h1, fun n h => ⟨h2 n (hn n h), ?_⟩⟩
    rw [values_set h3, hmap _ _ h]

/-- A new block for a variable that owns nothing. -/
theorem alloc_ok {s : State V} (H : Inv s) {x : Nat} (hx : ∀ a, s.env x = some a → a = none) (w : V) :
    Inv ⟨s.heap ++ [some w], s.env.set x (some (some s.heap.length))⟩ ∧
    values ⟨s.heap ++ [some w], s.env.set x (some (some s.heap.length))⟩ = (values s).set x (some (some w)) := by
  obtain ⟨h1, h2, h3⟩ := H.alloc hx (a' := some s.heap.length) (b := w) rfl trivial
  refine ⟨h1, ?_⟩
  rw [values_set (fun y c _ hy => h2 y c hy)]
  congr 1
  rw [Option.map_some, valueOf_eq, h3]

/-- `m_val = unique_ptr(new T(w))`: the new block is allocated before the old one is deleted. -/
theorem assign_ok {s : State V} (H : Inv s) {x : Nat} {o : Option Nat} (hx : s.env x = some o) (w : V) :
    ∃ h', replace (s.heap ++ [some w]) o = .ok h' ∧ Inv ⟨h', s.env.set x (some (some s.heap.length))⟩ ∧
      values ⟨h', s.env.set x (some (some s.heap.length))⟩ = (values s).set x (some (some w)) := by
  obtain ⟨h', e, hh⟩ := replace_ok H hx
  obtain ⟨h1, h2⟩ := hh (some none) rfl
  have hlen : h'.length = s.heap.length := by
    cases o with
    | none => cases e; rfl
    | some p =>
      obtain ⟨b, hb, _⟩ := H.live x _ p hx rfl
      simp only [replace, Heap.free, hb] at e
      cases e; simp
  have hrep : replace (s.heap ++ [some w]) o = .ok (h' ++ [some w]) := by
    cases o with
    | none => cases e; rfl
    | some p =>
      obtain ⟨b, hb, _⟩ := H.live x _ p hx rfl
      have hlt := H.lt hx (p := p) rfl
      simp only [replace, Heap.free, hb] at e
      cases e
      simp only [replace, Heap.free, List.getElem?_append_left hlt, hb, List.set_append_left _ _ hlt]
  refine ⟨h' ++ [some w], hrep, ?_⟩
  obtain ⟨h3, h4⟩ := alloc_ok h1 (x := x) (fun a ha => by simp only [Env.set_same] at ha; cases ha; rfl) w
  simp only [Env.set_set, hlen] at h3 h4
  exact ⟨h3, by rw [h4, h2, Env.set_set]⟩

theorem step_ok {s : State V} (H : Inv s) {op : Op V} {σ' : Env (Option V)} (hs : spec (values s) op = some σ') :
    ∃ s', step s op = .ok s' ∧ Inv s' ∧ values s' = σ' := by
  have hfresh : ∀ {x}, values s x = none → fresh s x = .ok () := fun h => by simp [fresh, values_none h]
  have hlook : ∀ {x v}, s.env x = some v → lookup s x = .ok v := fun h => by simp [lookup, h]
  have hnone : ∀ {x}, values s x = none → ∀ a, s.env x = some a → a = none :=
    fun h a ha => by rw [values_none h] at ha; cases ha
  have hderef : ∀ {p w}, s.heap[p]? = some (some w) → deref s.heap (some p) = .ok w := fun h => by
    simp [deref, Heap.read, h]
  cases op with
  | new x =>
    simp only [spec] at hs
    cases hx : values s x with
    | some _ => rw [hx] at hs; cases hs
    | none =>
      rw [hx] at hs; cases hs
      refine ⟨⟨s.heap, s.env.set x (some none)⟩, by simp only [step, hfresh hx, Exec.ok_bind],
        H.hollow (hnone hx) (fun a ha => by cases ha; rfl), ?_⟩
      rw [values_set (s := s) (fun _ _ _ _ => rfl)]; rfl
  | newVal x v =>
    simp only [spec] at hs
    cases hx : values s x with
    | some _ => rw [hx] at hs; cases hs
    | none =>
      rw [hx] at hs; cases hs
      obtain ⟨h1, h2⟩ := alloc_ok H (hnone hx) v
      exact ⟨_, by simp only [step, hfresh hx, Exec.ok_bind]; rfl, h1, h2⟩
  | newCopy x y =>
    simp only [spec] at hs
    cases hx : values s x with
    | some _ => rw [hx] at hs; simp at hs
    | none =>
      rw [hx] at hs
      cases hy : values s y with
      | none => rw [hy] at hs; simp at hs
      | some a =>
        rw [hy] at hs; cases hs
        obtain ⟨o, ho, hv⟩ := values_some hy
        cases a with
        | none =>
          have := none_owns H ho hv; subst this
          refine ⟨⟨s.heap, s.env.set x (some none)⟩, by simp only [step, hfresh hx, hlook ho, Exec.ok_bind],
            H.hollow (hnone hx) (fun a ha => by cases ha; rfl), ?_⟩
          rw [values_set (s := s) (fun _ _ _ _ => rfl)]; rfl
        | some w =>
          obtain ⟨p, rfl, hp⟩ := some_owns H ho hv
          obtain ⟨h1, h2⟩ := alloc_ok H (hnone hx) w
          exact ⟨_, by simp only [step, hfresh hx, hlook ho, Exec.ok_bind, hderef hp]; rfl, h1, h2⟩
  | newMove x y =>
    simp only [spec] at hs
    cases hx : values s x with
    | some _ => rw [hx] at hs; simp at hs
    | none =>
      rw [hx] at hs
      cases hy : values s y with
      | none => rw [hy] at hs; simp at hs
      | some a =>
        rw [hy] at hs; cases hs
        obtain ⟨o, ho, hv⟩ := values_some hy
        have hxy : x ≠ y := by rintro rfl; rw [hx] at hy; cases hy
        refine ⟨⟨s.heap, (s.env.set x (some o)).set y (some none)⟩, by simp only [step, hfresh hx, hlook ho, Exec.ok_bind],
          H.move hxy (hnone hx) ho rfl, ?_⟩
        rw [values_set2, Option.map_some, Option.map_some, hv]; rfl
  | destroy x =>
    simp only [spec] at hs
    cases hx : values s x with
    | none => rw [hx] at hs; cases hs
    | some a =>
      rw [hx] at hs; cases hs
      obtain ⟨o, ho, hv⟩ := values_some hx
      obtain ⟨h', e, hh⟩ := replace_ok H ho
      obtain ⟨h1, h2⟩ := hh none rfl
      exact ⟨⟨h', s.env.set x none⟩, by simp only [step, hlook ho, Exec.ok_bind, e], h1, h2⟩
  | copyAssign x y =>
    simp only [spec] at hs
    cases hx : values s x with
    | none => rw [hx] at hs; simp at hs
    | some b =>
      rw [hx] at hs
      obtain ⟨t, ht, hv⟩ := values_some hx
      cases hy : values s y with
      | none => rw [hy] at hs; simp at hs
      | some a =>
        rw [hy] at hs; cases hs
        obtain ⟨o, ho, hw⟩ := values_some hy
        cases a with
        | none =>
          have := none_owns H ho hw; subst this
          obtain ⟨h', e, hh⟩ := replace_ok H ht
          obtain ⟨h1, h2⟩ := hh (some none) rfl
          exact ⟨⟨h', s.env.set x (some none)⟩, by simp only [step, hlook ht, hlook ho, Exec.ok_bind, e], h1, h2⟩
        | some w =>
          obtain ⟨p, rfl, hp⟩ := some_owns H ho hw
          obtain ⟨h', e, h1, h2⟩ := assign_ok H ht w
          exact ⟨⟨h', s.env.set x (some (some s.heap.length))⟩,
            by simp only [step, hlook ht, hlook ho, Exec.ok_bind, hderef hp, Heap.alloc, e], h1, h2⟩
  | moveAssign x y =>
    simp only [spec] at hs
    cases hx : values s x with
    | none => rw [hx] at hs; simp at hs
    | some b =>
      rw [hx] at hs
      obtain ⟨t, ht, hv⟩ := values_some hx
      cases hy : values s y with
      | none => rw [hy] at hs; simp at hs
      | some a =>
        rw [hy] at hs
        simp only at hs
        obtain ⟨o, ho, hw⟩ := values_some hy
        by_cases hxy : x = y
        · rw [if_pos hxy] at hs; cases hs
          exact ⟨s, by simp only [step, hlook ht, hlook ho, Exec.ok_bind, if_pos hxy], H, rfl⟩
        · rw [if_neg hxy] at hs; cases hs
          obtain ⟨h', e, hh⟩ := replace_ok H ht
          obtain ⟨h1, h2⟩ := hh none rfl
          have ho' : (s.env.set x none) y = some o := by rw [Env.set_other _ _ (Ne.symm hxy)]; exact ho
          refine ⟨⟨h', (s.env.set x (some o)).set y (some none)⟩,
            by simp only [step, hlook ht, hlook ho, Exec.ok_bind, if_neg hxy, e], ?_, ?_⟩
          · have h4 := h1.move hxy (fun a ha => by simp only [Env.set_same] at ha; cases ha) ho' (o' := none) rfl
            rw [Env.set_set] at h4; exact h4
          · have h5 := values_set2 (s := ⟨h', s.env.set x none⟩) (x := x) (y := y) (a := some o) (b := some none)
            simp only [Env.set_set] at h5
            rw [h5, h2, Option.map_none, Env.set_set]
            have : values ⟨h', s.env.set x none⟩ y = some a := by
              rw [h2, Env.set_other _ _ (Ne.symm hxy)]; exact hy
            simp only [values_at, ho', Option.map_some, Option.some.injEq] at this
            rw [Option.map_some, Option.map_some, this]; rfl
  | reset x =>
    simp only [spec] at hs
    cases hx : values s x with
    | none => rw [hx] at hs; cases hs
    | some a =>
      rw [hx] at hs; cases hs
      obtain ⟨o, ho, hv⟩ := values_some hx
      obtain ⟨h', e, hh⟩ := replace_ok H ho
      obtain ⟨h1, h2⟩ := hh (some none) rfl
      exact ⟨⟨h', s.env.set x (some none)⟩, by simp only [step, hlook ho, Exec.ok_bind, e], h1, h2⟩
  | assign x v =>
    simp only [spec] at hs
    cases hx : values s x with
    | none => rw [hx] at hs; cases hs
    | some a =>
      rw [hx] at hs; cases hs
      obtain ⟨o, ho, hv⟩ := values_some hx
      obtain ⟨h', e, h1, h2⟩ := assign_ok H ho v
      exact ⟨⟨h', s.env.set x (some (some s.heap.length))⟩,
        by simp only [step, hlook ho, Exec.ok_bind, Heap.alloc, e], h1, h2⟩
  | assignElem x y =>
    simp only [spec] at hs
    cases hx : values s x with
    | none => rw [hx] at hs; simp at hs
    | some b =>
      rw [hx] at hs
      obtain ⟨t, ht, hv⟩ := values_some hx
      cases hy : values s y with
      | none => rw [hy] at hs; simp at hs
      | some a =>
        rw [hy] at hs
        cases a with
        | none => simp at hs
        | some w =>
          cases hs
          obtain ⟨o, ho, hw⟩ := values_some hy
          obtain ⟨p, rfl, hp⟩ := some_owns H ho hw
          obtain ⟨h', e, h1, h2⟩ := assign_ok H ht w
          exact ⟨⟨h', s.env.set x (some (some s.heap.length))⟩,
            by simp only [step, hlook ht, hlook ho, Exec.ok_bind, hderef hp, Heap.alloc, e], h1, h2⟩
  | write x v =>
    simp only [spec] at hs
    cases hx : values s x with
    | none => rw [hx] at hs; simp at hs
    | some a =>
      rw [hx] at hs
      cases a with
      | none => simp at hs
      | some w =>
        cases hs
        obtain ⟨o, ho, hw⟩ := values_some hx
        obtain ⟨p, rfl, hp⟩ := some_owns H ho hw
        obtain ⟨w1, w2, w3, w4⟩ := H.write ho (p := p) rfl (b := v) trivial
        refine ⟨⟨s.heap.set p (some v), s.env⟩, by simp only [step, hlook ho, Exec.ok_bind, w1], w2, ?_⟩
        have := values_set (s := s) (h' := s.heap.set p (some v)) (x := x) (o := some (some p)) w3
        rw [Env.set_self _ ho] at this
        rw [this, Option.map_some, valueOf_eq, w4]

theorem inv_start : Inv (State.start : State V) :=
  ⟨fun x a p h => by simp [State.start] at h, fun x y a b p h => by simp [State.start] at h,
    fun p b h => by simp [State.start] at h⟩

theorem run_ok {s : State V} (H : Inv s) {ops : List (Op V)} {σ' : Env (Option V)}
    (hs : specRun (values s) ops = some σ') : ∃ s', run s ops = .ok s' ∧ Inv s' ∧ values s' = σ' := by
  induction ops generalizing s with
  | nil => cases hs; exact ⟨s, rfl, H, rfl⟩
  | cons op ops ih =>
    simp only [specRun] at hs
    cases h1 : spec (values s) op with
    | none => rw [h1] at hs; cases hs
    | some σ1 =>
      rw [h1] at hs
      obtain ⟨s1, e1, H1, v1⟩ := step_ok H h1
      simp only at hs
      rw [← v1] at hs
      obtain ⟨s', e', H', v'⟩ := ih H1 hs
      exact ⟨s', by simp only [run, e1, Exec.ok_bind]; exact e', H', v'⟩

end DynOpt

end FastBer
