import Verif.Model.Enum
import Verif.Spec.Enum
/-!
# Numbers of enumerators
-/
namespace FastBer.Enum
open FastBer Ast

theorem lines_eq (items : List (Name × Option Int)) : lines items = items := by
  unfold lines
  conv => rhs; rw [← List.map_id items]
  refine List.map_congr_left fun i _ => ?_
  obtain ⟨n, v⟩ := i
  cases v <;> rfl

theorem enumerators_cons {next : Int} {n : Name} {v : Option Int} {ls : List Line} {es : List (Name × Int)} (h : enumerators next ((n, v) :: ls) = some es) :
    ∃ es', enumerators (v.getD next + 1) ls = some es' ∧ es = (n, v.getD next) :: es' ∧ (∀ e ∈ es', e.1 ≠ n) ∧ -2147483648 ≤ v.getD next ∧ v.getD next ≤ 2147483647 := by
  unfold enumerators at h
  dsimp only at h
  split at h
  · rename_i hr
    split at h
    · rename_i es' he
      split at h
      · cases h
      · rename_i hn
        cases h
        refine ⟨es', he, rfl, fun e hm hne => hn ?_, hr⟩
        exact List.any_eq_true.2 ⟨e, hm, beq_iff_eq.2 hne⟩
    · cases h
  · cases h

theorem enumerators_names : ∀ {ls : List Line} {next : Int} {es : List (Name × Int)}, enumerators next ls = some es → es.map (·.1) = ls.map (·.1)
  | [], _, es, h => by unfold enumerators at h; cases h; rfl
  | (n, v) :: ls, next, es, h => by
    obtain ⟨es', h1, rfl, -⟩ := enumerators_cons h
    simp [enumerators_names h1]

theorem enumerators_numbered : ∀ {ls : List Line} {next : Int} {es : List (Name × Int)}, enumerators next ls = some es → ∀ {i : Nat} {n : Name} {v : Int},
    ls[i]? = some (n, some v) → es[i]? = some (n, v)
  | [], _, _, _, i, _, _, hi => by simp at hi
  | (n', v') :: ls, next, es, h, i, n, v, hi => by
    obtain ⟨es', h1, rfl, -⟩ := enumerators_cons h
    cases i with
    | zero => simp only [List.getElem?_cons_zero, Option.some.injEq, Prod.mk.injEq] at hi; obtain ⟨rfl, rfl⟩ := hi; rfl
    | succ i => exact enumerators_numbered h1 (by simpa using hi)

/-- Items without a number at the beginning are counted. -/
theorem enumerators_counted : ∀ {ls : List Line} {next : Int} {es : List (Name × Int)}, enumerators next ls = some es → ∀ {i : Nat} {n : Name},
    ls[i]? = some (n, none) → (∀ j < i, ∃ m, ls[j]? = some (m, none)) → es[i]? = some (n, next + i)
  | [], _, _, _, i, _, hi, _ => by simp at hi
  | (n', v') :: ls, next, es, h, i, n, hi, hj => by
    obtain ⟨es', h1, rfl, -⟩ := enumerators_cons h
    cases i with
    | zero => simp only [List.getElem?_cons_zero, Option.some.injEq, Prod.mk.injEq] at hi; obtain ⟨rfl, rfl⟩ := hi; simp
    | succ i =>
      obtain ⟨m, hm⟩ := hj 0 (by omega)
      simp only [List.getElem?_cons_zero, Option.some.injEq, Prod.mk.injEq] at hm
      obtain ⟨rfl, rfl⟩ := hm
      have := enumerators_counted h1 (i := i) (n := n) (by simpa using hi) (fun j hlt => by simpa using hj (j + 1) (by omega))
      simp only [List.getElem?_cons_succ, this, Option.some.injEq, Prod.mk.injEq, true_and, Option.getD_none]
      omega

/-- The same numbers in another way: the standard leaves no choice. -/
theorem numbers_unique {root added : List Spec.Item} {vs ws vs' ws' : List Int} (h : Spec.Numbers root added vs ws) (h' : Spec.Numbers root added vs' ws') : vs = vs' ∧ ws = ws' := by
  have hv : vs = vs' := by
    have key : ∀ i : Nat, ∀ v v', vs[i]? = some v → vs'[i]? = some v' → v = v' := by
      intro i
      induction i using Nat.strongRecOn with
      | _ i ih =>
        intro v v' hv hv'
        have a := h.root i v hv
        have b := h'.root i v' hv'
        unfold Spec.RootNumber at a b
        cases hr : root[i]? with
        | none => rw [hr] at a; exact a.elim
        | some item =>
          obtain ⟨n, x⟩ := item
          rw [hr] at a b
          cases x with
          | some x => exact a.trans b.symm
          | none =>
            obtain ⟨a1, a2, a3⟩ := a
            obtain ⟨b1, b2, b3⟩ := b
            rcases Int.lt_trichotomy v v' with hlt | he | hlt
            · obtain ⟨j, m, hj, hm, hu⟩ := (b3 v).1 ⟨a1, hlt, a2⟩
              obtain ⟨u, hu'⟩ : ∃ u, vs[j]? = some u := ⟨vs[j]'(by rw [h.rootLength]; exact (List.getElem?_eq_some_iff.1 hm).1), by simp⟩
              obtain rfl := ih j hj u v hu' hu
              have := (a3 u).2 ⟨j, m, hj, hm, hu'⟩
              exact absurd this.2.1 (Int.lt_irrefl _)
            · exact he
            · obtain ⟨j, m, hj, hm, hu⟩ := (a3 v').1 ⟨b1, hlt, b2⟩
              obtain ⟨u, hu'⟩ : ∃ u, vs'[j]? = some u := ⟨vs'[j]'(by rw [h'.rootLength]; exact (List.getElem?_eq_some_iff.1 hm).1), by simp⟩
              obtain rfl := ih j hj v' u hu hu'
              have := (b3 v').2 ⟨j, m, hj, hm, hu'⟩
              exact absurd this.2.1 (Int.lt_irrefl _)
    refine List.ext_getElem (h.rootLength.trans h'.rootLength.symm) fun i hi hi' => ?_
    exact key i _ _ (List.getElem?_eq_getElem hi) (List.getElem?_eq_getElem hi')
  subst hv
  refine ⟨rfl, ?_⟩
  have key : ∀ i : Nat, ∀ v v', ws[i]? = some v → ws'[i]? = some v' → v = v' := by
    intro i
    induction i using Nat.strongRecOn with
    | _ i ih =>
      intro v v' hv hv'
      have a := h.added i v hv
      have b := h'.added i v' hv'
      unfold Spec.AddedNumber at a b
      cases hr : added[i]? with
      | none => rw [hr] at a; exact a.elim
      | some item =>
        obtain ⟨n, x⟩ := item
        rw [hr] at a b
        cases x with
        | some x => exact a.trans b.symm
        | none =>
          obtain ⟨a1, a2, a3, a4⟩ := a
          obtain ⟨b1, b2, b3, b4⟩ := b
          have hi : i < added.length := (List.getElem?_eq_some_iff.1 hr).1
          refine Int.le_antisymm (a4 v' b1 b2 fun j hj u hu => ?_) (b4 v a1 a2 fun j hj u hu => ?_)
          · have hl : j < ws'.length := by rw [h'.addedLength]; omega
            have := ih j hj u _ hu (List.getElem?_eq_getElem hl)
            exact b3 j hj u (this ▸ List.getElem?_eq_getElem hl)
          · have hl : j < ws.length := by rw [h.addedLength]; omega
            have := ih j hj _ u (List.getElem?_eq_getElem hl) hu
            exact a3 j hj u (this ▸ List.getElem?_eq_getElem hl)
  refine List.ext_getElem (h.addedLength.trans h'.addedLength.symm) fun i hi hi' => ?_
  exact key i _ _ (List.getElem?_eq_getElem hi) (List.getElem?_eq_getElem hi')

theorem constants_numbers {root added : List Spec.Item} {cs : List (Name × Int)} (hc : constants (root ++ added) = some cs)
    (front : ∀ (i j : Nat) n, i < j → (root ++ added)[j]? = some (n, none) → ∃ m, (root ++ added)[i]? = some (m, none))
    (free : ∀ (j : Nat) n, root[j]? = some (n, none) → ∀ item ∈ root, item.2 ≠ some (j : Int)) :
    cs.map (·.1) = (root ++ added).map (·.1) ∧ Spec.Numbers root added ((cs.map (·.2)).take root.length) ((cs.map (·.2)).drop root.length) := by
  unfold constants at hc
  rw [lines_eq] at hc
  have hn := enumerators_names hc
  have hl : cs.length = root.length + added.length := by simpa using congrArg List.length hn
  have num : ∀ {i : Nat} {n v}, (root ++ added)[i]? = some (n, some v) → (cs.map (·.2))[i]? = some v := by
    intro i n v h
    simp [enumerators_numbered hc h]
  have cnt : ∀ {i : Nat} {n}, (root ++ added)[i]? = some (n, none) → (cs.map (·.2))[i]? = some (i : Int) := by
    intro i n h
    simp [enumerators_counted hc h (fun j hj => front j i n hj h)]
  generalize hvs : cs.map (·.2) = vs at num cnt
  have hvl : vs.length = root.length + added.length := by rw [← hvs]; simpa using hl
  have left : ∀ {i : Nat}, i < root.length → (root ++ added)[i]? = root[i]? := fun h => List.getElem?_append_left h
  have right : ∀ {i : Nat}, (root ++ added)[root.length + i]? = added[i]? := fun {i} => by rw [List.getElem?_append_right (by omega)]; congr 1; omega
  have tk : ∀ {i : Nat}, i < root.length → (vs.take root.length)[i]? = vs[i]? := fun h => by rw [List.getElem?_take]; simp [h]
  refine ⟨hn, ⟨by simp [hvl], by simp [hvl], fun i v hv => ?_, fun i v hv => ?_⟩⟩
  · have hi : i < root.length := by
      have := (List.getElem?_eq_some_iff.1 hv).1
      simp at this; omega
    rw [tk hi] at hv
    unfold Spec.RootNumber
    cases hr : root[i]? with
    | none => rw [List.getElem?_eq_none_iff] at hr; omega
    | some item =>
      obtain ⟨n, x⟩ := item
      cases x with
      | some x =>
        have := num (i := i) ((left hi).trans hr)
        rw [hv] at this
        exact Option.some.inj this
      | none =>
        have he := cnt (i := i) ((left hi).trans hr)
        rw [hv] at he
        obtain rfl := Option.some.inj he
        refine ⟨by omega, free i n hr, fun u => ⟨?_, ?_⟩⟩
        · rintro ⟨h0, h1, h2⟩
          have hj : u.toNat < i := by omega
          obtain ⟨m, hm⟩ := front u.toNat i n hj ((left hi).trans hr)
          have hm' := cnt hm
          rw [left (by omega)] at hm
          refine ⟨u.toNat, m, hj, hm, ?_⟩
          rw [tk (by omega), hm']
          congr 1; omega
        · rintro ⟨j, m, hj, hm, hu⟩
          have := cnt ((left (i := j) (by omega)).trans hm)
          rw [tk (by omega), this] at hu
          obtain rfl := Option.some.inj hu
          exact ⟨by omega, by omega, free j m hm⟩
  · rw [List.getElem?_drop] at hv
    unfold Spec.AddedNumber
    cases hr : added[i]? with
    | none =>
      rw [List.getElem?_eq_none_iff] at hr
      have := (List.getElem?_eq_some_iff.1 hv).1
      omega
    | some item =>
      obtain ⟨n, x⟩ := item
      cases x with
      | some x =>
        have := num (right.trans hr)
        rw [hv] at this
        exact Option.some.inj this
      | none =>
        have he := cnt (right.trans hr)
        rw [hv] at he
        obtain rfl := Option.some.inj he
        have hroot : ∀ j < root.length, vs[j]? = some (j : Int) := by
          intro j hj
          obtain ⟨m, hm⟩ := front j (root.length + i) n (by omega) (right.trans hr)
          exact cnt hm
        have hadd : ∀ j < i, (vs.drop root.length)[j]? = some ((root.length + j : Nat) : Int) := by
          intro j hj
          obtain ⟨m, hm⟩ := front (root.length + j) (root.length + i) n (by omega) (right.trans hr)
          rw [List.getElem?_drop]
          exact cnt hm
        refine ⟨by omega, ?_, fun j hj u hu => ?_, fun w h0 h1 h2 => ?_⟩
        · intro hm
          obtain ⟨j, hj⟩ := List.getElem?_of_mem hm
          have hlt : j < root.length := by
            have := (List.getElem?_eq_some_iff.1 hj).1
            simp at this; omega
          rw [tk hlt, hroot j hlt] at hj
          have := Option.some.inj hj
          omega
        · rw [hadd j hj] at hu
          have := Option.some.inj hu
          omega
        · have h3 : (root.length : Int) ≤ w := by
            refine Int.not_lt.1 fun hlt => h1 ?_
            have hw : w.toNat < root.length := by omega
            have := hroot w.toNat hw
            rw [← tk hw] at this
            have hm := List.mem_of_getElem? this
            rwa [Int.toNat_of_nonneg h0] at hm
          cases i with
          | zero => simpa using h3
          | succ i =>
            have := h2 i (by omega) _ (hadd i (by omega))
            omega

theorem enumerators_ok {next : Int} {n : Name} {v : Option Int} {ls : List Line} (hr : -2147483648 ≤ v.getD next ∧ v.getD next ≤ 2147483647)
    (hn : n ∉ ls.map (·.1)) (h : (enumerators (v.getD next + 1) ls).isSome) : (enumerators next ((n, v) :: ls)).isSome := by
  obtain ⟨es, he⟩ := Option.isSome_iff_exists.1 h
  unfold enumerators
  dsimp only
  rw [if_pos hr, he]
  dsimp only
  rw [if_neg]
  · rfl
  · intro ha
    obtain ⟨e, h1, h2⟩ := List.any_eq_true.1 ha
    refine hn ?_
    rw [← enumerators_names he, ← beq_iff_eq.1 h2]
    exact List.mem_map_of_mem h1

theorem enumerators_all_numbered : ∀ {ls : List Line} (next : Int), (ls.map (·.1)).Nodup → (∀ l ∈ ls, ∃ v, l.2 = some v ∧ -2147483648 ≤ v ∧ v ≤ 2147483647) →
    (enumerators next ls).isSome
  | [], _, _, _ => rfl
  | (n, v) :: ls, next, hn, hv => by
    obtain ⟨h1, h2⟩ := List.nodup_cons.1 hn
    obtain ⟨x, hx, hr⟩ := hv _ List.mem_cons_self
    dsimp only at hx
    subst hx
    exact enumerators_ok (v := some x) hr h1 (enumerators_all_numbered _ h2 fun l hl => hv l (List.mem_cons_of_mem _ hl))

theorem enumerators_front : ∀ {ls : List Line} {next : Int}, 0 ≤ next → next + ls.length ≤ 2147483648 → (ls.map (·.1)).Nodup →
    (∀ l ∈ ls, ∀ v, l.2 = some v → -2147483648 ≤ v ∧ v ≤ 2147483647) → (∀ (i j : Nat) n, i < j → ls[j]? = some (n, none) → ∃ m, ls[i]? = some (m, none)) →
    (enumerators next ls).isSome
  | [], _, _, _, _, _, _ => rfl
  | (n, some v) :: ls, next, h0, hl, hn, hv, hf => by
    obtain ⟨h1, h2⟩ := List.nodup_cons.1 hn
    refine enumerators_ok (hv (n, some v) List.mem_cons_self v rfl) h1 (enumerators_all_numbered _ h2 fun l hm => ?_)
    obtain ⟨m, x⟩ := l
    cases x with
    | some x => exact ⟨x, rfl, hv (m, some x) (List.mem_cons_of_mem _ hm) x rfl⟩
    | none =>
      obtain ⟨j, hj⟩ := List.getElem?_of_mem hm
      obtain ⟨m', hm'⟩ := hf 0 (j + 1) m (by omega) (by simpa using hj)
      simp at hm'
  | (n, none) :: ls, next, h0, hl, hn, hv, hf => by
    obtain ⟨h1, h2⟩ := List.nodup_cons.1 hn
    simp only [List.length_cons] at hl
    refine enumerators_ok (by simp only [Option.getD_none]; omega) h1 (enumerators_front (by simp only [Option.getD_none]; omega) (by simp only [Option.getD_none]; omega) h2
      (fun l hm => hv l (List.mem_cons_of_mem _ hm)) fun i j m hij hj => ?_)
    obtain ⟨m', hm'⟩ := hf (i + 1) (j + 1) m (by omega) (by simpa using hj)
    exact ⟨m', by simpa using hm'⟩

end FastBer.Enum
