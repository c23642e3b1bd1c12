import Verif.Proofs.SplitSim
/-!
# Where the types of the split modules come from
-/
namespace FastBer.Ast
open FastBer.Ast.Spec

/-- Where a type written in the split module `m2` comes from: it was made of a type of the source, is the name of such a type, or an import. -/
inductive Comes (src S : Tree) (m m2 : Module) : AType → Prop where
  | alias {i : Import} {n : Name} : i ∈ m.imports → n ∈ i.types → Comes src S m m2 (.defined (some i.module) n [])
  | made {t : AType} {k : Nat} : Occurs src m t → Pushed S m2 (findNested m.name t k).2.1 → Comes src S m m2 (findNested m.name t k).1
  | name {t : AType} {k : Nat} {p : String} : Occurs src m t → Pushed S m2 (findNested m.name t k).2.1 → unnamedPrefix (findNested m.name t k).1 = some p →
      ∀ n : Nat, target S m2 (some m.name) (p ++ toString n) = some (m2, (findNested m.name t k).1) → Comes src S m m2 (.defined (some m.name) (p ++ toString n) [])

theorem comes_inner {src S : Tree} {m m2 : Module} (hn : m2.name = m.name) {t : AType} {k : Nat} (ho : Occurs src m t)
    (hp : Pushed S m2 (splitInner m.name (findNested m.name t k)).2.1) : Comes src S m m2 (splitInner m.name (findNested m.name t k)).1 := by
  generalize hr : findNested m.name t k = r at hp
  obtain ⟨t', ns, j⟩ := r
  unfold splitInner at hp ⊢
  cases hx : unnamedPrefix t' with
  | none =>
    dsimp only at hp ⊢
    rw [hx] at hp
    rw [hx]
    have := Comes.made (src := src) (S := S) (m2 := m2) ho (k := k) (by rw [hr]; exact hp)
    rwa [hr] at this
  | some p =>
    dsimp only at hp ⊢
    rw [hx] at hp
    rw [hx]
    refine .name (t := t) (k := k) ho ?_ (by rw [hr]; exact hx) _ ?_
    · rw [hr]; exact fun q hq => hp q (List.mem_append_left _ hq)
    · rw [hr, ← hn]
      exact hp (p ++ toString j, t') (List.mem_append_right _ (List.mem_singleton.2 rfl))

mutual
/-- The definitions pushed are made of types inside. -/
theorem findNested_pushed {own : Name} {P : AType → Prop} (hP : ∀ t u, P t → Child t u → P u) : ∀ (t : AType) (k : Nat), P t →
    ∀ p ∈ (findNested own t k).2.1, ∃ u j, P u ∧ p.2 = (findNested own u j).1 ∧ ∀ q ∈ (findNested own u j).2.1, q ∈ (findNested own t k).2.1
  | .leaf b, k, _, p, hp => by cases hp
  | .objField q c fs, k, _, p, hp => by cases hp
  | .defined q ref ps, k, _, p, hp => by cases hp
  | .choice as s, k, h, p, hp => findNestedAlts_pushed hP as k (fun a ha => hP _ _ h (.choice ha)) p hp
  | .sequence cs e, k, h, p, hp => findNestedComps_pushed hP cs k (fun a ha => hP _ _ h (.sequence ha)) p hp
  | .set cs e, k, h, p, hp => findNestedComps_pushed hP cs k (fun a ha => hP _ _ h (.set ha)) p hp
  | .seqOf n t s, k, h, p, hp => splitInner_pushed hP t k (hP _ _ h .seqOf) p hp
  | .setOf n t s, k, h, p, hp => splitInner_pushed hP t k (hP _ _ h .setOf) p hp
  | .prefixed c n md t, k, h, p, hp => splitInner_pushed hP t k (hP _ _ h .prefixed) p hp
theorem splitInner_pushed {own : Name} {P : AType → Prop} (hP : ∀ t u, P t → Child t u → P u) (t : AType) (k : Nat) (h : P t) :
    ∀ p ∈ (splitInner own (findNested own t k)).2.1, ∃ u j, P u ∧ p.2 = (findNested own u j).1 ∧
      ∀ q ∈ (findNested own u j).2.1, q ∈ (splitInner own (findNested own t k)).2.1 := by
  have ih := findNested_pushed (own := own) hP t k h
  generalize hr : findNested own t k = r at ih
  obtain ⟨t', ns, j⟩ := r
  unfold splitInner
  cases hx : unnamedPrefix t' with
  | none => dsimp only; rw [hx]; exact ih
  | some q =>
    dsimp only; rw [hx]
    intro p hp
    rcases List.mem_append.1 hp with hp | hp
    · obtain ⟨u, i, h1, h2, h3⟩ := ih p hp
      exact ⟨u, i, h1, h2, fun q hq => List.mem_append_left _ (h3 q hq)⟩
    · rw [List.mem_singleton] at hp
      subst hp
      refine ⟨t, k, h, by rw [hr], fun q hq => List.mem_append_left _ ?_⟩
      rw [hr] at hq; exact hq
theorem findNestedAlts_pushed {own : Name} {P : AType → Prop} (hP : ∀ t u, P t → Child t u → P u) : ∀ (as : List Named) (k : Nat), (∀ a ∈ as, P a.type) →
    ∀ p ∈ (findNestedAlts own as k).2.1, ∃ u j, P u ∧ p.2 = (findNested own u j).1 ∧ ∀ q ∈ (findNested own u j).2.1, q ∈ (findNestedAlts own as k).2.1
  | [], k, _, p, hp => by cases hp
  | .mk n t :: as, k, h, p, hp => by
    rw [findNestedAlts] at hp ⊢
    rcases List.mem_append.1 hp with hp | hp
    · obtain ⟨u, i, h1, h2, h3⟩ := findNested_pushed hP t k (h _ (List.mem_cons_self)) p hp
      exact ⟨u, i, h1, h2, fun q hq => List.mem_append_left _ (h3 q hq)⟩
    · obtain ⟨u, i, h1, h2, h3⟩ := findNestedAlts_pushed hP as _ (fun a ha => h a (List.mem_cons_of_mem _ ha)) p hp
      exact ⟨u, i, h1, h2, fun q hq => List.mem_append_right _ (h3 q hq)⟩
theorem findNestedComps_pushed {own : Name} {P : AType → Prop} (hP : ∀ t u, P t → Child t u → P u) : ∀ (as : List Comp) (k : Nat), (∀ a ∈ as, P a.type) →
    ∀ p ∈ (findNestedComps own as k).2.1, ∃ u j, P u ∧ p.2 = (findNested own u j).1 ∧ ∀ q ∈ (findNested own u j).2.1, q ∈ (findNestedComps own as k).2.1
  | [], k, _, p, hp => by cases hp
  | .mk n t o d co s :: as, k, h, p, hp => by
    rw [findNestedComps] at hp ⊢
    rcases List.mem_append.1 hp with hp | hp
    · obtain ⟨u, i, h1, h2, h3⟩ := findNested_pushed hP t k (h _ (List.mem_cons_self)) p hp
      exact ⟨u, i, h1, h2, fun q hq => List.mem_append_left _ (h3 q hq)⟩
    · obtain ⟨u, i, h1, h2, h3⟩ := findNestedComps_pushed hP as _ (fun a ha => h a (List.mem_cons_of_mem _ ha)) p hp
      exact ⟨u, i, h1, h2, fun q hq => List.mem_append_right _ (h3 q hq)⟩
end

/-- Where the assignments come from. -/
theorem splitAssignments_from (own : Name) (as : List Assignment) (k : Nat) {a' : Assignment} (ha : a' ∈ (splitAssignments own as k).1) {t' : AType}
    (hb : a'.body = .type t') : ∃ a ∈ as, ∃ t j, a.body = .type t ∧ ((a'.name = a.name ∧ t' = (findNested own t j).1) ∨ (a'.name, t') ∈ (findNested own t j).2.1) ∧
      ∀ p ∈ (findNested own t j).2.1, ∃ a' ∈ (splitAssignments own as k).1, a'.name = p.1 ∧ a'.body = .type p.2 := by
  induction as generalizing k with
  | nil => cases ha
  | cons b as ih =>
    rw [splitAssignments] at ha ⊢
    rcases List.mem_append.1 ha with ha | ha
    · unfold splitAssignment at ha ⊢
      split at ha
      · rename_i t ht
        refine ⟨b, List.mem_cons_self, t, k, ht, ?_, ?_⟩
        · rcases List.mem_append.1 ha with ha | ha
          · obtain ⟨p, hp, rfl⟩ := List.mem_map.1 ha
            cases hb
            exact .inr (List.mem_reverse.1 hp)
          · rw [List.mem_singleton] at ha
            subst ha
            cases hb
            exact .inl ⟨rfl, rfl⟩
        · intro p hp
          refine ⟨⟨p.1, .type p.2, []⟩, ?_, rfl, rfl⟩
          exact List.mem_append_left _ (List.mem_append_left _ (List.mem_map.2 ⟨p, List.mem_reverse.2 hp, rfl⟩))
      · rename_i hx
        rw [List.mem_singleton] at ha
        subst ha
        exact absurd hb (hx t')
    · obtain ⟨a, h1, t, j, h2, h3, h4⟩ := ih _ ha
      refine ⟨a, List.mem_cons_of_mem _ h1, t, j, h2, h3, fun p hp => ?_⟩
      obtain ⟨x, hx, hy⟩ := h4 p hp
      exact ⟨x, List.mem_append_right _ hx, hy⟩

theorem occurs_child {src : Tree} {m : Module} {t u : AType} (h : Occurs src m t) (hc : Child t u) : Occurs src m u := by
  cases hc with
  | choice ha => exact .choice h ha
  | sequence ha => exact .sequence h ha
  | set ha => exact .set h ha
  | seqOf => exact .seqOf h
  | setOf => exact .setOf h
  | prefixed => exact .prefixed h

/-- Every assigned type of the split modules. -/
theorem SplitTree.comes {src S : Tree} (h : SplitTree src S) {m m2 : Module} (hm : m ∈ src.modules) (hm2 : m2 ∈ S.modules) (hs : SplitModule m m2)
    {a' : Assignment} (ha : a' ∈ m2.assignments) {t' : AType} (hb : a'.body = .type t') : Comes src S m m2 t' := by
  obtain ⟨-, j, rfl⟩ := hs
  obtain ⟨a, h1, t, k, h2, h3, h4⟩ := splitAssignments_from m.name _ _ ha hb
  have hp : Pushed S { m with assignments := (splitAssignments m.name (splitImports m.assignments m.imports) j).1 } (findNested m.name t k).2.1 := by
    intro p hp
    obtain ⟨x, h5, h6, h7⟩ := h4 p hp
    exact h.distinct.target hm2 rfl h5 h6 h7
  rcases mem_splitImports h1 with h1 | ⟨i, hi, n, hn, rfl⟩
  · have ho : Occurs src m t := .assigned hm h1 h2
    rcases h3 with ⟨-, rfl⟩ | h3
    · exact .made ho hp
    · obtain ⟨u, l, h5, h6, h7⟩ := findNested_pushed (P := Occurs src m) (fun t u => occurs_child) t k ho _ h3
      have : Comes src S m { m with assignments := (splitAssignments m.name (splitImports m.assignments m.imports) j).1 } (findNested m.name u l).1 :=
        .made h5 fun q hq => hp q (h7 q hq)
      rwa [← h6] at this
  · cases h2
    rcases h3 with ⟨-, rfl⟩ | h3
    · exact .alias hi hn
    · cases h3

theorem Comes.child {src S : Tree} {m m2 : Module} (hn : m2.name = m.name) {t u : AType} (h : Comes src S m m2 t) (hc : Child t u) : Comes src S m m2 u := by
  cases h with
  | alias => cases hc
  | name => cases hc
  | @made t k ho hp =>
    generalize hr : (findNested m.name t k).1 = r at hc
    cases t with
    | leaf => cases hr; cases hc
    | objField => cases hr; cases hc
    | defined => cases hr; cases hc
    | choice as s =>
      cases hr
      generalize hx : (findNestedAlts m.name as k).1 = as' at hc
      cases hc with
      | @choice _ _ a' ha =>
      subst hx
      obtain ⟨i, hi⟩ := List.getElem?_of_mem ha
      obtain ⟨a, j, h1, rfl, h2⟩ := findNestedAlts_get _ _ _ hi
      exact .made (.choice ho (List.mem_of_getElem? h1)) fun p hp' => hp p (h2 p hp')
    | sequence as s =>
      cases hr
      generalize hx : (findNestedComps m.name as k).1 = as' at hc
      cases hc with
      | @sequence _ _ a' ha =>
      subst hx
      obtain ⟨i, hi⟩ := List.getElem?_of_mem ha
      obtain ⟨a, j, h1, rfl, h2⟩ := findNestedComps_get _ _ _ hi
      exact .made (.sequence ho (List.mem_of_getElem? h1)) fun p hp' => hp p (h2 p hp')
    | set as s =>
      cases hr
      generalize hx : (findNestedComps m.name as k).1 = as' at hc
      cases hc with
      | @set _ _ a' ha =>
      subst hx
      obtain ⟨i, hi⟩ := List.getElem?_of_mem ha
      obtain ⟨a, j, h1, rfl, h2⟩ := findNestedComps_get _ _ _ hi
      exact .made (.set ho (List.mem_of_getElem? h1)) fun p hp' => hp p (h2 p hp')
    | seqOf n t s =>
      cases hr
      generalize hx : (splitInner m.name (findNested m.name t k)).1 = t' at hc
      cases hc
      subst hx
      exact comes_inner hn (.seqOf ho) hp
    | setOf n t s =>
      cases hr
      generalize hx : (splitInner m.name (findNested m.name t k)).1 = t' at hc
      cases hc
      subst hx
      exact comes_inner hn (.setOf ho) hp
    | prefixed c n md t =>
      cases hr
      generalize hx : (splitInner m.name (findNested m.name t k)).1 = t' at hc
      cases hc
      subst hx
      exact comes_inner hn (.prefixed ho) hp

/-- Every type written in the split modules. -/
theorem SplitTree.occurs {src S : Tree} (h : SplitTree src S) {m2 : Module} {t2 : AType} (ho : Occurs S m2 t2) :
    m2 ∈ S.modules ∧ ∃ m ∈ src.modules, m2.name = m.name ∧ m2.tagging = m.tagging ∧ SplitModule m m2 ∧ Comes src S m m2 t2 := by
  induction ho with
  | assigned hm ha hb =>
    obtain ⟨m, hm', hs⟩ := h.only _ hm
    refine ⟨hm, m, hm', ?_, ?_, hs, h.comes hm' hm hs ha hb⟩
    · obtain ⟨-, j, rfl⟩ := hs; rfl
    · obtain ⟨-, j, rfl⟩ := hs; rfl
  | sequence _ hc ih => obtain ⟨h0, m, h1, h2, h3, h4, h5⟩ := ih; exact ⟨h0, m, h1, h2, h3, h4, h5.child h2 (.sequence hc)⟩
  | set _ hc ih => obtain ⟨h0, m, h1, h2, h3, h4, h5⟩ := ih; exact ⟨h0, m, h1, h2, h3, h4, h5.child h2 (.set hc)⟩
  | choice _ hc ih => obtain ⟨h0, m, h1, h2, h3, h4, h5⟩ := ih; exact ⟨h0, m, h1, h2, h3, h4, h5.child h2 (.choice hc)⟩
  | seqOf _ ih => obtain ⟨h0, m, h1, h2, h3, h4, h5⟩ := ih; exact ⟨h0, m, h1, h2, h3, h4, h5.child h2 .seqOf⟩
  | setOf _ ih => obtain ⟨h0, m, h1, h2, h3, h4, h5⟩ := ih; exact ⟨h0, m, h1, h2, h3, h4, h5.child h2 .setOf⟩
  | prefixed _ ih => obtain ⟨h0, m, h1, h2, h3, h4, h5⟩ := ih; exact ⟨h0, m, h1, h2, h3, h4, h5.child h2 .prefixed⟩

/-- No COMPONENTS OF appears. -/
theorem Comes.noComponentsOf {src S : Tree} {m m2 : Module} (hp : PlainSource src) {t : AType} (h : Comes src S m m2 t) : ¬ HasComponentsOf t := by
  rintro ⟨cs', e, ht, c, hc, hco⟩
  cases h with
  | alias => rcases ht with ht | ht <;> cases ht
  | name => rcases ht with ht | ht <;> cases ht
  | @made t k ho _ =>
    have hno := hp.componentsOf m t ho
    cases t with
    | leaf | objField | defined | choice | seqOf | setOf | prefixed => rcases ht with ht | ht <;> cases ht
    | sequence cs e' =>
      rcases ht with ht | ht
      · cases ht
        obtain ⟨i, hi⟩ := List.getElem?_of_mem hc
        obtain ⟨c0, j, h1, rfl, -⟩ := findNestedComps_get _ _ _ hi
        exact hno ⟨cs, _, .inl rfl, c0, List.mem_of_getElem? h1, hco⟩
      · cases ht
    | set cs e' =>
      rcases ht with ht | ht
      · cases ht
      · cases ht
        obtain ⟨i, hi⟩ := List.getElem?_of_mem hc
        obtain ⟨c0, j, h1, rfl, -⟩ := findNestedComps_get _ _ _ hi
        exact hno ⟨cs, _, .inr rfl, c0, List.mem_of_getElem? h1, hco⟩

/-- No field of an object appears. -/
theorem Comes.noObject {src S : Tree} {m m2 : Module} (hp : PlainSource src) {t : AType} (h : Comes src S m m2 t) (q : Option Name) (c : Name) (fs : List Name) :
    t ≠ .objField q c fs := by
  intro ht
  cases h with
  | alias => cases ht
  | name => cases ht
  | @made t k ho _ =>
    cases t with
    | objField => exact hp.objects m _ _ _ ho
    | leaf | sequence | set | defined | choice | seqOf | setOf | prefixed => cases ht

end FastBer.Ast
