import Verif.Model.ComponentsOf
import Verif.Spec.ComponentsOf
/-! COMPONENTS OF. -/
namespace FastBer.Ast
open Spec

theorem pointwise_find {α β : Type} {r : α → β → Prop} {f : α → Name} {g : β → Name} (hr : ∀ a b, r a b → g b = f a)
    {l : List α} {l' : List β} (h : Pointwise r l l') (n : Name) :
    (l.find? (f · == n) = none ∧ l'.find? (g · == n) = none) ∨
    ∃ a b, l.find? (f · == n) = some a ∧ l'.find? (g · == n) = some b ∧ r a b := by
  induction h with
  | nil => exact .inl ⟨rfl, rfl⟩
  | @cons a b as bs hab _ ih =>
    rw [List.find?_cons, List.find?_cons, hr a b hab]
    cases f a == n with
    | true => exact .inr ⟨a, b, rfl, rfl, hab⟩
    | false => exact ih

theorem pointwise_append {α β : Type} {r : α → β → Prop} {l : List α} {l' : List β} (h : Pointwise r l l') {a : α} {b : β}
    (hab : r a b) : Pointwise r (l ++ [a]) (l' ++ [b]) := by
  induction h with
  | nil => exact .cons hab .nil
  | cons h _ ih => exact .cons h ih

theorem _root_.FastBer.Ast.Spec.Flattened.flat {tree : Tree} {mod : Name} {cs cs' : List Comp} (h : Flattened tree mod cs cs') : Flat cs' := by
  induction h with
  | nil => intro c hc; cases hc
  | component h1 _ ih =>
    intro c hc
    rcases List.mem_cons.1 hc with rfl | hc
    · exact h1
    · exact ih c hc
  | componentsOf _ _ _ _ ih1 ih2 =>
    intro c hc
    rcases List.mem_append.1 hc with hc | hc
    · exact ih1 c hc
    · exact ih2 c hc

theorem flattened_of_flat {tree : Tree} {mod : Name} {cs : List Comp} (h : Flat cs) : Flattened tree mod cs cs := by
  induction cs with
  | nil => exact .nil
  | cons c cs ih => exact .component (h c (by simp)) (ih fun c hc => h c (by simp [hc]))

theorem _root_.FastBer.Ast.Spec.FlattenedAssignment.name {tree : Tree} {mod : Name} {a a' : Assignment} (h : FlattenedAssignment tree mod a a') : a'.name = a.name := by
  cases h <;> rfl

/-- The found assignment has the flattened components. -/
def FoundFlat (tree : Tree) (mod : Name) (ds : List Comp) (r : Res (Option Assignment)) : Prop :=
  ∃ b ds', r = .ok (some b) ∧ components b.body = some ds' ∧ Flattened tree mod ds ds'

theorem _root_.FastBer.Ast.Spec.FlattenedAssignment.found {tree : Tree} {mod : Name} {a a' : Assignment} (h : FlattenedAssignment tree mod a a') {ds : List Comp}
    (hc : components a.body = some ds) : ∃ ds', components a'.body = some ds' ∧ Flattened tree mod ds ds' := by
  cases h with
  | sequence h => cases hc; exact ⟨_, rfl, h⟩
  | set h => cases hc; exact ⟨_, rfl, h⟩
  | other h => rw [h] at hc; cases hc

theorem spotFind_flat {tree : Tree} {ms₁ done : List Module} {m : Module} {ms₂ : List Module} {as₁ doneAs : List Assignment}
    {a : Assignment} {as₂ : List Assignment} (hms : tree.modules = ms₁ ++ m :: ms₂) (has : m.assignments = as₁ ++ a :: as₂)
    (hp : Pointwise (FlattenedModule tree) ms₁ done) (hpa : Pointwise (FlattenedAssignment tree m.name) as₁ doneAs)
    {cs : List Comp} {e : Bool} (hb : a.body = .type (.sequence cs e)) {c : Comp} (hc : c ∈ cs) (hco : c.componentsOf ≠ none)
    {mod ref : Name} {b : Body} {ds : List Comp} (hl : lookup tree mod ref = some b) (hd : components b = some ds)
    (hf : Flat ds ∨ Earlier ms₁ m.name as₁ mod ref) :
    FoundFlat tree mod ds (spotFind done m doneAs a as₂ ms₂ mod ref) := by
  unfold lookup at hl
  obtain ⟨wm, h1, hl⟩ := Option.bind_eq_some_iff.1 hl
  obtain ⟨ba, h2, h3⟩ := Option.map_eq_some_iff.1 hl
  subst h3
  have hmod : wm.name = mod := by simpa using List.find?_some h1
  unfold spotFind
  rw [hms, List.find?_append] at h1
  rcases pointwise_find (f := fun m : Module => m.name) (g := fun m : Module => m.name) (fun a b h => h.1) hp mod with
    ⟨n1, n2⟩ | ⟨m0, m', n1, n2, hm⟩
  · rw [n2]
    rw [n1, Option.none_or, List.find?_cons] at h1
    dsimp only
    cases he : m.name == mod with
    | true =>
      rw [he] at h1
      simp only [if_true]
      cases h1
      rw [has, List.find?_append] at h2
      rcases pointwise_find (f := fun a : Assignment => a.name) (g := fun a : Assignment => a.name)
        (fun a b h => FlattenedAssignment.name h) hpa ref with ⟨k1, k2⟩ | ⟨a0, a', k1, k2, ha⟩
      · have hnot : ¬ Earlier ms₁ m.name as₁ mod ref := by
          rintro (h | ⟨_, h⟩)
          · obtain ⟨x, hx, hxn⟩ := List.mem_map.1 h
            exact absurd (List.find?_eq_none.1 n1 x hx) (by simp [hxn])
          · obtain ⟨x, hx, hxn⟩ := List.mem_map.1 h
            exact absurd (List.find?_eq_none.1 k1 x hx) (by simp [hxn])
        have hflat := hf.resolve_right hnot
        rw [k2]
        rw [k1, Option.none_or, List.find?_cons] at h2
        dsimp only
        cases her : a.name == ref with
        | true =>
          rw [her] at h2
          cases h2
          rw [hb] at hd
          cases hd
          exact absurd (hflat c hc) hco
        | false =>
          rw [her] at h2
          simp only [Bool.false_eq_true, if_false]
          dsimp only at h2
          rw [h2]
          exact ⟨ba, ds, rfl, hd, flattened_of_flat hflat⟩
      · rw [k1] at h2
        cases h2
        rw [k2]
        obtain ⟨ds', j1, j2⟩ := ha.found hd
        exact ⟨a', ds', rfl, j1, hmod ▸ j2⟩
    | false =>
      rw [he] at h1
      simp only [Bool.false_eq_true, if_false]
      dsimp only at h1
      rw [h1]
      have hnot : ¬ Earlier ms₁ m.name as₁ mod ref := by
        rintro (h | ⟨h, _⟩)
        · obtain ⟨x, hx, hxn⟩ := List.mem_map.1 h
          exact absurd (List.find?_eq_none.1 n1 x hx) (by simp [hxn])
        · rw [h] at he; simp at he
      refine ⟨ba, ds, ?_, hd, flattened_of_flat (hf.resolve_right hnot)⟩
      dsimp only
      unfold findAssignment
      rw [h2]; rfl
  · rw [n1] at h1
    cases h1
    rw [n2]
    rcases pointwise_find (f := fun a : Assignment => a.name) (g := fun a : Assignment => a.name)
        (fun a b h => FlattenedAssignment.name h) hm.2.2.2 ref with ⟨k1, k2⟩ | ⟨a0, a', k1, k2, ha⟩
    · rw [k1] at h2; cases h2
    · rw [k1] at h2
      cases h2
      obtain ⟨ds', j1, j2⟩ := ha.found hd
      refine ⟨a', ds', ?_, j1, hmod ▸ j2⟩
      dsimp only
      unfold findAssignment
      rw [k2]; rfl

theorem filter_flat {cs : List Comp} (h : Flat cs) : cs.filter (fun c => c.componentsOf.isNone) = cs := by
  rw [List.filter_eq_self]
  intro c hc
  rw [h c hc]; rfl

theorem expandComps_flat {tree : Tree} {mod : Name} {find : Option Name → Name → Res (Option Assignment)} (cs : List Comp)
    (h : ∀ c ∈ cs, ∀ t, c.componentsOf = some t → ∃ m ref ps mod' ds, t = .defined m ref ps ∧ CollectionType tree mod t mod' ds ∧
      FoundFlat tree mod' ds (find m ref)) :
    ∃ out, expandComps find cs = .ok out ∧ Flattened tree mod cs (out.filter fun c => c.componentsOf.isNone) := by
  induction cs with
  | nil => exact ⟨[], rfl, .nil⟩
  | cons c cs ih =>
    obtain ⟨out, h1, h2⟩ := ih fun c hc => h c (by simp [hc])
    rw [expandComps.eq_def]
    dsimp only
    cases hco : c.componentsOf with
    | none =>
      refine ⟨c :: out, ?_, ?_⟩
      · dsimp only; rw [h1]; rfl
      · rw [List.filter_cons, hco]
        exact .component hco h2
    | some t =>
      obtain ⟨m, ref, ps, mod', ds, rfl, k1, b, ds', k2, k3, k4⟩ := h c (by simp) t hco
      refine ⟨ds' ++ c :: out, ?_, ?_⟩
      · dsimp only
        rw [k2, Res.ok_bind]
        cases hb : b.body with
        | type t =>
          rw [hb] at k3
          cases t <;> simp only [components, Option.some.injEq, reduceCtorEq] at k3
          all_goals
            subst k3
            simp only [hb]
            rw [h1]; rfl
        | value => rw [hb] at k3; cases k3
        | objectClass => rw [hb] at k3; cases k3
        | objectSet => rw [hb] at k3; cases k3
      · rw [List.filter_append, filter_flat k4.flat, List.filter_cons, hco]
        exact .componentsOf hco k1 k4 h2

theorem collectionType_ref {tree : Tree} {mod : Name} {m : Option Name} {ref : Name} {ps : List AType} {b : Body} {ds : List Comp}
    (hl : lookup tree (m.getD mod) ref = some b) (hd : components b = some ds) :
    CollectionType tree mod (.defined m ref ps) (m.getD mod) ds := by
  unfold components at hd
  split at hd
  · cases hd
    rename_i e
    refine ⟨e, "", ref, .inl (.reference (m := m) (ref := ref) (ps := ps) (by simp [untag]) (.here hl ?_))⟩
    intro m r h; cases h
  · cases hd
    rename_i e
    refine ⟨e, "", ref, .inr (.reference (m := m) (ref := ref) (ps := ps) (by simp [untag]) (.here hl ?_))⟩
    intro m r h; cases h
  · cases hd

theorem flattened_cons_inv {tree : Tree} {mod : Name} {c : Comp} {cs out : List Comp} (h : Flattened tree mod (c :: cs) out) {t : AType}
    (ht : c.componentsOf = some t) : ∃ mod' ds ds' cs', CollectionType tree mod t mod' ds ∧ Flattened tree mod' ds ds' ∧
      Flattened tree mod cs cs' ∧ out = ds' ++ cs' := by
  cases h with
  | component h => rw [h] at ht; cases ht
  | componentsOf h1 h2 h3 h4 =>
    rw [h1] at ht; cases ht
    exact ⟨_, _, _, _, h2, h3, h4, rfl⟩

theorem collectionType_inv {tree : Tree} {mod : Name} {m : Option Name} {ref : Name} {ps : List AType} {ds : List Comp} {e : Bool}
    (hl : lookup tree (m.getD mod) ref = some (.type (.sequence ds e))) {mod' : Name} {ds' : List Comp}
    (h : CollectionType tree mod (.defined m ref ps) mod' ds') : mod' = m.getD mod ∧ ds' = ds := by
  obtain ⟨e', nm, n, h | h⟩ := h
  all_goals
    cases h with
    | reference hu hs =>
      simp only [untag, AType.defined.injEq] at hu
      obtain ⟨rfl, rfl, rfl⟩ := hu
      cases hs with
      | here hl' => rw [hl] at hl'; cases hl' <;> exact ⟨rfl, rfl⟩
      | alias hl' => rw [hl] at hl'; cases hl'

theorem expandAssignment_flat {tree : Tree} (hx : Expandable tree) {ms₁ done : List Module} {m : Module} {ms₂ : List Module}
    {as₁ doneAs : List Assignment} {a : Assignment} {as₂ : List Assignment} (hms : tree.modules = ms₁ ++ m :: ms₂)
    (has : m.assignments = as₁ ++ a :: as₂) (hp : Pointwise (FlattenedModule tree) ms₁ done)
    (hpa : Pointwise (FlattenedAssignment tree m.name) as₁ doneAs) :
    ∃ a', expandAssignment (fun m' ref => spotFind done m doneAs a as₂ ms₂ (m'.getD m.name) ref) a = .ok a' ∧
      FlattenedAssignment tree m.name a a' := by
  unfold expandAssignment
  split
  · rename_i cs e hb
    obtain ⟨out, h1, h2⟩ := expandComps_flat (tree := tree) (mod := m.name)
      (find := fun m' ref => spotFind done m doneAs a as₂ ms₂ (m'.getD m.name) ref) cs (by
        intro c hc t ht
        obtain ⟨m', ref, ps, b, ds, rfl, hl, hd, hf⟩ := hx.references ms₁ m ms₂ hms as₁ a as₂ has cs e hb c hc t ht
        exact ⟨m', ref, ps, m'.getD m.name, ds, rfl, collectionType_ref hl hd,
          spotFind_flat hms has hp hpa hb hc (by rw [ht]; simp) hl hd hf⟩)
    rw [h1, Res.ok_bind]
    obtain ⟨n, body, ps⟩ := a
    dsimp only at hb
    subst hb
    exact ⟨_, rfl, .sequence h2⟩
  · rename_i hns
    refine ⟨a, rfl, ?_⟩
    obtain ⟨n, body, ps⟩ := a
    cases body with
    | type t =>
      cases t with
      | sequence cs e => exact absurd rfl (hns cs e)
      | set cs e => exact .set (flattened_of_flat (hx.sets m (by rw [hms]; simp) ⟨n, .type (.set cs e), ps⟩ (by rw [has]; simp) cs e rfl))
      | _ => exact .other rfl
    | value => exact .other rfl
    | objectClass => exact .other rfl
    | objectSet => exact .other rfl

theorem expandAssignments_flat {tree : Tree} (hx : Expandable tree) {ms₁ done : List Module} {m : Module} {ms₂ : List Module}
    (hms : tree.modules = ms₁ ++ m :: ms₂) (hp : Pointwise (FlattenedModule tree) ms₁ done) :
    ∀ (rest as₁ doneAs : List Assignment), m.assignments = as₁ ++ rest → Pointwise (FlattenedAssignment tree m.name) as₁ doneAs →
    ∃ as', expandAssignments done m ms₂ doneAs rest = .ok as' ∧ Pointwise (FlattenedAssignment tree m.name) m.assignments as' := by
  intro rest
  induction rest with
  | nil => intro as₁ doneAs h hpa; exact ⟨doneAs, rfl, by rw [h, List.append_nil]; exact hpa⟩
  | cons a rest ih =>
    intro as₁ doneAs h hpa
    obtain ⟨a', h1, h2⟩ := expandAssignment_flat hx hms h hp hpa
    rw [expandAssignments, h1, Res.ok_bind]
    exact ih (as₁ ++ [a]) (doneAs ++ [a']) (by rw [h]; simp) (pointwise_append hpa h2)

theorem expandModules_flat {tree : Tree} (hx : Expandable tree) : ∀ (rest ms₁ done : List Module), tree.modules = ms₁ ++ rest →
    Pointwise (FlattenedModule tree) ms₁ done →
    ∃ ms', expandModules done rest = .ok ms' ∧ Pointwise (FlattenedModule tree) tree.modules ms' := by
  intro rest
  induction rest with
  | nil => intro ms₁ done h hp; exact ⟨done, rfl, by rw [h, List.append_nil]; exact hp⟩
  | cons m rest ih =>
    intro ms₁ done h hp
    obtain ⟨as', h1, h2⟩ := expandAssignments_flat hx h hp m.assignments [] [] rfl .nil
    rw [expandModules, h1, Res.ok_bind]
    exact ih (ms₁ ++ [m]) _ (by rw [h]; simp) (pointwise_append hp ⟨rfl, rfl, rfl, h2⟩)

end FastBer.Ast
