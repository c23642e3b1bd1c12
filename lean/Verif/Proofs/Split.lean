import Std.Data.String.ToNat
import Verif.Model.Split
import Verif.Spec.Split
import Verif.Proofs.Params
/-! Splitting nested structures. -/
namespace FastBer.Ast
open Spec

/-- The name made up with number `k`. -/
def Made (n : Name) (k : Nat) : Prop := ∃ t p, unnamedPrefix t = some p ∧ n = p ++ toString k

theorem prefix_cases {t : AType} {p : String} (h : unnamedPrefix t = some p) :
    p = "UnnamedSet" ∨ p = "UnnamedSequence" ∨ p = "UnnamedEnum" ∨ p = "UnnamedChoice" := by
  unfold unnamedPrefix at h
  split at h <;> cases h <;> simp

theorem Made.madeUp {n : Name} {k : Nat} (h : Made n k) : MadeUp n := by
  obtain ⟨t, p, h, rfl⟩ := h
  refine ⟨k, ?_⟩
  rcases prefix_cases h with rfl | rfl | rfl | rfl <;> simp

theorem digit_toString (k : Nat) : ∀ c ∈ (toString k).toList, c.isDigit := by
  intro c hc
  have : c ∈ (Nat.repr k).toList := hc
  rw [Nat.toList_repr] at this
  exact Nat.isDigit_of_mem_toDigits (by decide) (by decide) this

theorem toString_inj {a b : Nat} (h : toString a = toString b) : a = b := Nat.repr_injective h

theorem suffix_inj {a b : List Char} {c : Char} {x y : List Char} (hx : ∀ d ∈ x, d.isDigit) (hy : ∀ d ∈ y, d.isDigit)
    (hc : c.isDigit = false) {e : Char} (he : e.isDigit = false) (h : a ++ c :: x = b ++ e :: y) : x = y := by
  induction a generalizing b with
  | nil =>
    cases b with
    | nil => simp at h; exact h.2
    | cons b bs =>
      simp only [List.nil_append, List.cons_append, List.cons.injEq] at h
      have : e ∈ x := by rw [h.2]; simp
      rw [hx e this] at he; cases he
  | cons a as ih =>
    cases b with
    | nil =>
      simp only [List.nil_append, List.cons_append, List.cons.injEq] at h
      have : c ∈ y := by rw [← h.2]; simp
      rw [hy c this] at hc; cases hc
    | cons b bs =>
      simp only [List.cons_append, List.cons.injEq] at h
      exact ih h.2

theorem Made.toList {n : Name} {k : Nat} (h : Made n k) : ∃ p c, c.isDigit = false ∧ n.toList = p ++ c :: (toString k).toList := by
  obtain ⟨t, p, h, rfl⟩ := h
  rw [String.toList_append]
  rcases prefix_cases h with rfl | rfl | rfl | rfl
  · exact ⟨"UnnamedSe".toList, 't', by decide, rfl⟩
  · exact ⟨"UnnamedSequenc".toList, 'e', by decide, rfl⟩
  · exact ⟨"UnnamedEnu".toList, 'm', by decide, rfl⟩
  · exact ⟨"UnnamedChoic".toList, 'e', by decide, rfl⟩

theorem Made.inj {n : Name} {k k' : Nat} (h : Made n k) (h' : Made n k') : k = k' := by
  obtain ⟨p, c, hc, h⟩ := h.toList
  obtain ⟨q, e, he, h'⟩ := h'.toList
  rw [h] at h'
  have := suffix_inj (digit_toString k) (digit_toString k') hc he h'
  exact toString_inj (String.toList_inj.1 this)

/-- The names are made up with the numbers from `k` to `k'`. -/
inductive NamesFrom : Nat → List Name → Nat → Prop where
  | nil {k : Nat} : NamesFrom k [] k
  | cons {k k' : Nat} {n : Name} {ns : List Name} : Made n k → NamesFrom (k + 1) ns k' → NamesFrom k (n :: ns) k'

theorem NamesFrom.append {a b c : Nat} {l l' : List Name} (h : NamesFrom a l b) (h' : NamesFrom b l' c) : NamesFrom a (l ++ l') c := by
  induction h with
  | nil => exact h'
  | cons h1 _ ih => exact .cons h1 (ih h')

theorem NamesFrom.mem {a b : Nat} {l : List Name} (h : NamesFrom a l b) {n : Name} (hn : n ∈ l) : ∃ k, a ≤ k ∧ Made n k := by
  induction h with
  | nil => cases hn
  | @cons a _ _ _ h1 _ ih =>
    rcases List.mem_cons.1 hn with rfl | hn
    · exact ⟨a, Nat.le_refl _, h1⟩
    · obtain ⟨k, h2, h3⟩ := ih hn
      exact ⟨k, by omega, h3⟩

theorem NamesFrom.nodup {a b : Nat} {l : List Name} (h : NamesFrom a l b) : l.Nodup := by
  induction h with
  | nil => exact List.nodup_nil
  | cons h1 h2 ih =>
    refine List.nodup_cons.2 ⟨fun hm => ?_, ih⟩
    obtain ⟨k, h3, h4⟩ := h2.mem hm
    have := h1.inj h4
    omega

theorem prefix_needsName {t : AType} (h : unnamedPrefix t = none) : ¬ NeedsName t := by
  rintro (⟨cs, e, rfl⟩ | ⟨cs, e, rfl⟩ | rfl | ⟨as, s, rfl⟩) <;> cases h

theorem not_nests_defined {m : Option Name} {n : Name} {ps : List AType} : ¬ Somewhere Nests (.defined m n ps) := by
  rw [somewhere_iff]
  rintro (⟨i, -, ⟨_, _, h⟩ | ⟨_, _, h⟩ | ⟨_, _, _, h⟩⟩ | ⟨c, h, _⟩) <;> cases h

/-- What holds of the result of `findNested`. -/
structure Splits (own : Name) (t : AType) (k : Nat) (r : AType × List (Name × AType) × Nat) : Prop where
  names : NamesFrom k (r.2.1.map (·.1)) r.2.2
  unfolds : ∀ defs, (∀ p ∈ r.2.1, defs p.1 = some (.type p.2)) → Unfolds own defs r.1 t
  flat : ¬ Somewhere Nests r.1
  flatNew : ∀ p ∈ r.2.1, ¬ Somewhere Nests p.2

theorem splitInner_splits {own : Name} {t : AType} {k : Nat} {r : AType × List (Name × AType) × Nat} (h : Splits own t k r) :
    Splits own t k (splitInner own r) ∧ ¬ NeedsName (splitInner own r).1 := by
  obtain ⟨t', ns, k'⟩ := r
  unfold splitInner
  cases hp : unnamedPrefix t' with
  | none =>
    dsimp only; rw [hp]
    exact ⟨h, prefix_needsName hp⟩
  | some p =>
    dsimp only; rw [hp]
    have hm : Made (p ++ toString k') k' := ⟨t', p, hp, rfl⟩
    refine ⟨⟨?_, ?_, not_nests_defined, ?_⟩, ?_⟩
    · rw [List.map_append]
      exact h.names.append (.cons hm .nil)
    · intro defs hd
      exact .reference hm.madeUp (hd _ (List.mem_append_right _ (List.mem_singleton.2 rfl)))
        (h.unfolds defs fun q hq => hd q (List.mem_append_left _ hq))
    · intro q hq
      rcases List.mem_append.1 hq with hq | hq
      · exact h.flatNew q hq
      · rw [List.mem_singleton.1 hq]; exact h.flat
    · rintro (⟨_, _, h⟩ | ⟨_, _, h⟩ | h | ⟨_, _, h⟩) <;> cases h

/-- The same for lists. -/
structure SplitsAlts (own : Name) (as : List Named) (k : Nat) (r : List Named × List (Name × AType) × Nat) : Prop where
  names : NamesFrom k (r.2.1.map (·.1)) r.2.2
  unfolds : ∀ defs, (∀ p ∈ r.2.1, defs p.1 = some (.type p.2)) → UnfoldsAlts own defs r.1 as
  flat : ∀ a ∈ r.1, ¬ Somewhere Nests a.type
  flatNew : ∀ p ∈ r.2.1, ¬ Somewhere Nests p.2

structure SplitsComps (own : Name) (cs : List Comp) (k : Nat) (r : List Comp × List (Name × AType) × Nat) : Prop where
  names : NamesFrom k (r.2.1.map (·.1)) r.2.2
  unfolds : ∀ defs, (∀ p ∈ r.2.1, defs p.1 = some (.type p.2)) → UnfoldsComps own defs r.1 cs
  flat : ∀ c ∈ r.1, ¬ Somewhere Nests c.type
  flatNew : ∀ p ∈ r.2.1, ¬ Somewhere Nests p.2

theorem mem_append_split {α : Type} {P : α → Prop} {a b : List α} (h : ∀ p ∈ a ++ b, P p) : (∀ p ∈ a, P p) ∧ ∀ p ∈ b, P p :=
  ⟨fun p hp => h p (List.mem_append_left _ hp), fun p hp => h p (List.mem_append_right _ hp)⟩

mutual
theorem findNested_splits (own : Name) (t : AType) (k : Nat) : Splits own t k (findNested own t k) := by
  match t with
  | .leaf b =>
    refine ⟨.nil, fun _ _ => .leaf b, ?_, fun p hp => by cases hp⟩
    show ¬ Somewhere Nests (.leaf b)
    rw [somewhere_iff]
    rintro (⟨i, -, ⟨_, _, h⟩ | ⟨_, _, h⟩ | ⟨_, _, _, h⟩⟩ | ⟨c, h, _⟩) <;> cases h
  | .objField m c fs =>
    refine ⟨.nil, fun _ _ => .objField m c fs, ?_, fun p hp => by cases hp⟩
    show ¬ Somewhere Nests (.objField m c fs)
    rw [somewhere_iff]
    rintro (⟨i, -, ⟨_, _, h⟩ | ⟨_, _, h⟩ | ⟨_, _, _, h⟩⟩ | ⟨c, h, _⟩) <;> cases h
  | .defined m ref ps => exact ⟨.nil, fun _ _ => .same m ref ps, not_nests_defined, fun p hp => by cases hp⟩
  | .choice as s =>
    have h := findNestedAlts_splits own as k
    refine ⟨h.names, fun defs hd => .choice s (h.unfolds defs hd), ?_, h.flatNew⟩
    show ¬ Somewhere Nests (.choice _ s)
    rw [somewhere_iff]
    rintro (⟨i, -, ⟨_, _, h⟩ | ⟨_, _, h⟩ | ⟨_, _, _, h⟩⟩ | ⟨c, hc, hs⟩)
    · cases h
    · cases h
    · cases h
    · cases hc with | choice hc => exact h.flat _ hc hs
  | .sequence cs e =>
    have h := findNestedComps_splits own cs k
    refine ⟨h.names, fun defs hd => .sequence e (h.unfolds defs hd), ?_, h.flatNew⟩
    show ¬ Somewhere Nests (.sequence _ e)
    rw [somewhere_iff]
    rintro (⟨i, -, ⟨_, _, h⟩ | ⟨_, _, h⟩ | ⟨_, _, _, h⟩⟩ | ⟨c, hc, hs⟩)
    · cases h
    · cases h
    · cases h
    · cases hc with | sequence hc => exact h.flat _ hc hs
  | .set cs e =>
    have h := findNestedComps_splits own cs k
    refine ⟨h.names, fun defs hd => .set e (h.unfolds defs hd), ?_, h.flatNew⟩
    show ¬ Somewhere Nests (.set _ e)
    rw [somewhere_iff]
    rintro (⟨i, -, ⟨_, _, h⟩ | ⟨_, _, h⟩ | ⟨_, _, _, h⟩⟩ | ⟨c, hc, hs⟩)
    · cases h
    · cases h
    · cases h
    · cases hc with | set hc => exact h.flat _ hc hs
  | .seqOf n t s =>
    obtain ⟨h, hn⟩ := splitInner_splits (findNested_splits own t k)
    refine ⟨h.names, fun defs hd => .seqOf n s (h.unfolds defs hd), ?_, h.flatNew⟩
    show ¬ Somewhere Nests (.seqOf n _ s)
    rw [somewhere_iff]
    rintro (⟨i, hi, ⟨_, _, h⟩ | ⟨_, _, h⟩ | ⟨_, _, _, h⟩⟩ | ⟨c, hc, hs⟩)
    · cases h; exact hn hi
    · cases h
    · cases h
    · cases hc; exact h.flat hs
  | .setOf n t s =>
    obtain ⟨h, hn⟩ := splitInner_splits (findNested_splits own t k)
    refine ⟨h.names, fun defs hd => .setOf n s (h.unfolds defs hd), ?_, h.flatNew⟩
    show ¬ Somewhere Nests (.setOf n _ s)
    rw [somewhere_iff]
    rintro (⟨i, hi, ⟨_, _, h⟩ | ⟨_, _, h⟩ | ⟨_, _, _, h⟩⟩ | ⟨c, hc, hs⟩)
    · cases h
    · cases h; exact hn hi
    · cases h
    · cases hc; exact h.flat hs
  | .prefixed c j m t =>
    obtain ⟨h, hn⟩ := splitInner_splits (findNested_splits own t k)
    refine ⟨h.names, fun defs hd => .prefixed c j m (h.unfolds defs hd), ?_, h.flatNew⟩
    show ¬ Somewhere Nests (.prefixed c j m _)
    rw [somewhere_iff]
    rintro (⟨i, hi, ⟨_, _, h⟩ | ⟨_, _, h⟩ | ⟨_, _, _, h⟩⟩ | ⟨c, hc, hs⟩)
    · cases h
    · cases h
    · cases h; exact hn hi
    · cases hc; exact h.flat hs
theorem findNestedAlts_splits (own : Name) (as : List Named) (k : Nat) : SplitsAlts own as k (findNestedAlts own as k) := by
  match as with
  | [] => exact ⟨.nil, fun _ _ => .nil, fun a ha => (by cases ha), fun p hp => (by cases hp)⟩
  | .mk n t :: as =>
    have h := findNested_splits own t k
    have h' := findNestedAlts_splits own as (findNested own t k).2.2
    refine ⟨?_, ?_, ?_, ?_⟩
    · rw [findNestedAlts]
      dsimp only
      rw [List.map_append]
      exact h.names.append h'.names
    · intro defs hd
      rw [findNestedAlts] at hd ⊢
      obtain ⟨h1, h2⟩ := mem_append_split hd
      exact .cons (h.unfolds defs h1) (h'.unfolds defs h2)
    · intro a ha
      rw [findNestedAlts] at ha
      rcases List.mem_cons.1 ha with rfl | ha
      · exact h.flat
      · exact h'.flat a ha
    · intro p hp
      rw [findNestedAlts] at hp
      rcases List.mem_append.1 hp with hp | hp
      · exact h.flatNew p hp
      · exact h'.flatNew p hp
theorem findNestedComps_splits (own : Name) (cs : List Comp) (k : Nat) : SplitsComps own cs k (findNestedComps own cs k) := by
  match cs with
  | [] => exact ⟨.nil, fun _ _ => .nil, fun a ha => (by cases ha), fun p hp => (by cases hp)⟩
  | .mk n t o d co s :: cs =>
    have h := findNested_splits own t k
    have h' := findNestedComps_splits own cs (findNested own t k).2.2
    refine ⟨?_, ?_, ?_, ?_⟩
    · rw [findNestedComps]
      dsimp only
      rw [List.map_append]
      exact h.names.append h'.names
    · intro defs hd
      rw [findNestedComps] at hd ⊢
      obtain ⟨h1, h2⟩ := mem_append_split hd
      exact .cons (h.unfolds defs h1) (h'.unfolds defs h2)
    · intro a ha
      rw [findNestedComps] at ha
      rcases List.mem_cons.1 ha with rfl | ha
      · exact h.flat
      · exact h'.flat a ha
    · intro p hp
      rw [findNestedComps] at hp
      rcases List.mem_append.1 hp with hp | hp
      · exact h.flatNew p hp
      · exact h'.flatNew p hp
end

/-- What holds of the result of `splitAssignments`. -/
structure SplitsAll (own : Name) (as : List Assignment) (k : Nat) (r : List Assignment × Nat) : Prop where
  names : ∃ ns, NamesFrom k ns r.2 ∧ (r.1.map (·.name)).Perm (as.map (·.name) ++ ns)
  kept : (as.map (·.name)).Sublist (r.1.map (·.name))
  unfolds : ∀ defs, (∀ a ∈ r.1, defs a.name = some a.body) → ∀ a ∈ as, ∃ a' ∈ r.1, a'.name = a.name ∧ a'.params = a.params ∧
    UnfoldsBody own defs a'.body a.body
  flat : ∀ a ∈ r.1, ∀ t, a.body = .type t → ¬ Somewhere Nests t

theorem splitAssignment_splits (own : Name) (a : Assignment) (k : Nat) : SplitsAll own [a] k (splitAssignment own a k) := by
  unfold splitAssignment
  split
  · rename_i t hb
    have h := findNested_splits own t k
    refine ⟨⟨_, h.names, ?_⟩, ?_, ?_, ?_⟩
    · dsimp only
      rw [List.map_append, List.map_map]
      refine (List.perm_append_comm).trans ?_
      refine List.Perm.append (.refl _) ?_
      have : (List.map ((fun x : Assignment => x.name) ∘ fun p : Name × AType => { name := p.1, body := Body.type p.2, params := [] })
          (findNested own t k).2.1.reverse) = ((findNested own t k).2.1.map (·.1)).reverse := by
        rw [← List.map_reverse]; rfl
      rw [this]
      exact List.reverse_perm _
    · dsimp only
      rw [List.map_append]
      exact List.sublist_append_right _ _
    · intro defs hd a' ha'
      rw [List.mem_singleton] at ha'
      subst ha'
      refine ⟨_, List.mem_append_right _ (List.mem_singleton.2 rfl), rfl, rfl, ?_⟩
      rw [hb]
      refine .type (h.unfolds defs fun p hp => ?_)
      exact hd ⟨p.1, .type p.2, []⟩ (List.mem_append_left _ (List.mem_map.2 ⟨p, List.mem_reverse.2 hp, rfl⟩))
    · intro a' ha' u hu
      rcases List.mem_append.1 ha' with ha' | ha'
      · obtain ⟨p, hp, rfl⟩ := List.mem_map.1 ha'
        cases hu
        exact h.flatNew p (List.mem_reverse.1 hp)
      · rw [List.mem_singleton] at ha'
        subst ha'
        cases hu
        exact h.flat
  · rename_i hb
    refine ⟨⟨[], .nil, by simp⟩, by simp, ?_, ?_⟩
    · intro defs hd a' ha'
      rw [List.mem_singleton] at ha'
      subst ha'
      exact ⟨_, List.mem_singleton.2 rfl, rfl, rfl, .other hb⟩
    · intro a' ha' u hu
      rw [List.mem_singleton] at ha'
      subst ha'
      exact absurd hu (hb u)

theorem splitAssignments_splits (own : Name) (as : List Assignment) (k : Nat) : SplitsAll own as k (splitAssignments own as k) := by
  induction as generalizing k with
  | nil => exact ⟨⟨[], .nil, .nil⟩, by simp [splitAssignments], fun _ _ a ha => (by cases ha), fun a ha => (by cases ha)⟩
  | cons a as ih =>
    have h := splitAssignment_splits own a k
    have h' := ih (splitAssignment own a k).2
    rw [splitAssignments]
    refine ⟨?_, ?_, ?_, ?_⟩
    · obtain ⟨ns, h1, h2⟩ := h.names
      obtain ⟨ns', h1', h2'⟩ := h'.names
      refine ⟨ns ++ ns', h1.append h1', ?_⟩
      dsimp only
      rw [List.map_append, List.map_cons]
      refine (h2.append h2').trans ?_
      simp only [List.map_cons, List.map_nil, List.cons_append, List.nil_append]
      refine .cons _ ?_
      rw [← List.append_assoc, ← List.append_assoc]
      exact List.Perm.append_right _ List.perm_append_comm
    · dsimp only
      rw [List.map_append]
      exact h.kept.append h'.kept
    · intro defs hd a' ha'
      obtain ⟨d1, d2⟩ := mem_append_split hd
      rcases List.mem_cons.1 ha' with rfl | ha'
      · obtain ⟨x, hx, hr⟩ := h.unfolds defs d1 _ (List.mem_singleton.2 rfl)
        exact ⟨x, List.mem_append_left _ hx, hr⟩
      · obtain ⟨x, hx, hr⟩ := h'.unfolds defs d2 _ ha'
        exact ⟨x, List.mem_append_right _ hx, hr⟩
    · intro a' ha'
      rcases List.mem_append.1 ha' with ha' | ha'
      · exact h.flat a' ha'
      · exact h'.flat a' ha'

theorem definition_of_mem {as : List Assignment} (hn : (as.map (·.name)).Nodup) {a : Assignment} (ha : a ∈ as) :
    definition as a.name = some a.body := by
  induction as with
  | nil => cases ha
  | cons b as ih =>
    rw [List.map_cons, List.nodup_cons] at hn
    unfold definition
    rw [List.find?_cons]
    rcases List.mem_cons.1 ha with rfl | ha
    · simp
    · have : (b.name == a.name) = false := by
        rw [beq_eq_false_iff_ne]
        intro h
        exact hn.1 (h ▸ List.mem_map.2 ⟨a, ha, rfl⟩)
      rw [this]
      exact ih hn.2 ha

end FastBer.Ast
