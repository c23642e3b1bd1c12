import Verif.Proofs.DependOrder
import Verif.Props.Resolve
/-!
# C53, C54: the order of the assignments of a module

`own` is the name of the module, `as` its assignments, `tree` the whole syntax tree.  What a definition needs, mentions
and refers to, and which cycles are illegal, is said in `Spec/Depend.lean`.
-/
namespace FastBer.Props
open FastBer.Ast FastBer.Ast.Spec

/-- `reorder_assignments` ends for the assignments `as`, with result `r`. -/
def ReorderResult (tree : Tree) (own : Name) (as : List Assignment) (r : Res (List Assignment)) : Prop :=
  r ≠ .loop ∧ ∃ rf, reorderAssignments tree own rf as = r

/-- There is at most one result. -/
theorem C53_deterministic (tree : Tree) (own : Name) (as : List Assignment) (r r' : Res (List Assignment))
    (h : ReorderResult tree own as r) (h' : ReorderResult tree own as r') : r = r' := by
  obtain ⟨h1, f, hf⟩ := h
  obtain ⟨h1', f', hf'⟩ := h'
  rcases Nat.le_total f f' with hle | hle
  · rcases reorderAssignments_le (tree := tree) (own := own) (as := as) hle with h | h
    · rw [hf] at h; exact absurd h h1
    · rw [← hf, h, hf']
  · rcases reorderAssignments_le (tree := tree) (own := own) (as := as) hle with h | h
    · rw [hf'] at h; exact absurd h h1'
    · rw [← hf, ← h, hf']

/-- C53, first half: if the pass does not throw, no two assignments have the same name and its output is a
permutation of the assignments of the module, storage modes aside. -/
theorem C53_permutation (tree : Tree) (own : Name) (as out : List Assignment) (h : ReorderResult tree own as (.ok out)) :
    (as.map (·.name)).Nodup ∧ (out.map forgetA).Perm (as.map forgetA) := by
  obtain ⟨_, rf, h⟩ := h
  exact ⟨reorder_nodup h, reorder_perm h⟩

/-- C53, full statement: the output is a permutation in which every definition comes after those it needs. -/
def C53_statement : Prop := ∀ (tree : Tree) (own : Name) (as out : List Assignment), ReorderResult tree own as (.ok out) →
  (out.map forgetA).Perm (as.map forgetA) ∧ InOrder tree own out

/-- C53, second half, for modules without a nested SET that has a DEFAULT given by name (`C53_violated` shows that this is
needed): every definition comes after those it needs. -/
theorem C53_order_partial (tree : Tree) (own : Name) (as out : List Assignment) (hs : NoInnerSetDefaults as)
    (h : ReorderResult tree own as (.ok out)) : (out.map forgetA).Perm (as.map forgetA) ∧ InOrder tree own out := by
  obtain ⟨_, rf, h⟩ := h
  obtain ⟨_, _, _, h4, _⟩ := reorderAssignments_ok h
  exact ⟨reorder_perm h, fun pre a post e n hn => h4 hs pre a post e n (.inl hn)⟩

/-- Dynamic storage is used only to break a cycle: an assignment whose storage modes the pass changes is on a cycle of
mentions.  For modules whose components refer to types of the module itself only; otherwise a type of another
module is confused with one of the same name (`C54_foreign_violated`). -/
theorem C53_dynamic_partial (tree : Tree) (own : Name) (as out : List Assignment) (hl : LocalComponents own as)
    (h : ReorderResult tree own as (.ok out)) : ∀ a' ∈ out, ∃ a ∈ as, a.name = a'.name ∧ forgetA a = forgetA a' ∧
      (a' = a ∨ Relation.TransGen (MentionedBy own as) a.name a.name) := by
  obtain ⟨_, rf, h⟩ := h
  obtain ⟨_, _, _, _, h5⟩ := reorderAssignments_ok h
  intro a' ha'
  obtain ⟨a, k1, k2, _⟩ := h5 a' ha'
  obtain ⟨hm, hn⟩ := findLastAssignment_some k1
  exact ⟨a, hm, hn, k2.forget.symm, k2.cycle hl hm⟩

/-- `A ::= SEQUENCE { s SET { i INTEGER DEFAULT v } }`, `v INTEGER ::= 5`. -/
def innerSet : List Assignment :=
  [⟨"A", .type (.sequence [.mk "s" (.set [.mk "i" (.leaf .integer) false (some (.defined "v")) none .static_] false)
    false none none .static_] false), []⟩,
   ⟨"v", .value (.leaf .integer) (.int 5), []⟩]

/-- C53 is false: the default values of the components of a SET inside another type are not dependencies.  `A` needs
`v` and is written before it. -/
theorem C53_violated : ¬ C53_statement := by
  intro h
  have hr : ReorderResult ⟨[⟨"M", .explicit_, [], innerSet⟩]⟩ "M" innerSet (.ok innerSet) := ⟨by simp, 1, by rfl⟩
  have ho := (h _ _ _ _ hr).2
  obtain ⟨b, hb, _⟩ := ho [] _ [innerSet[1]] rfl "v" (.type (.sequence (List.mem_singleton.2 rfl) (fun _ => by simp [Comp.storage]) (.setDefault
    (List.mem_singleton.2 rfl) rfl (by
      rintro (h | ⟨nm, n, m, h⟩)
      · cases h
      · generalize hl : AType.leaf .enumerated = l at h
        cases h with
        | reference h => simp [Comp.type, untag] at h
        | itself => simp [Comp.type, untag] at hl))))
  cases hb

/-! ## C54 -/

/-- C54, full statement: the pass always ends, and throws if a reference is undefined or an illegal cycle exists. -/
def C54_statement : Prop := ∀ (tree : Tree) (own : Name) (as : List Assignment), ∃ r, ReorderResult tree own as r ∧
  (((∃ a ∈ as, ∃ n, Refs tree own a.body n ∧ n ∉ as.map (·.name)) ∨ IllegalCycle tree own as) → ∃ e, r = .throw e)

/-- `x DEFAULT v` in a SEQUENCE or SET definition: the pass asks what the type of `x` stands for, to see whether
`v` is an item of an ENUMERATED.  This says that all these questions have an answer. -/
def DefaultsResolve (tree : Tree) (own : Name) (as : List Assignment) (P : Res Resolved → Prop) : Prop :=
  ∀ a ∈ as, ∀ cs, components a.body = some cs → ∀ c ∈ cs, ∀ v, c.default = some (.defined v) →
    ∃ r, ResolveResult tree own c.name c.type r ∧ P r

theorem resolveType_ne_ub (tree : Tree) (here n : Name) (fuel : Nat) (t : AType) : resolveType tree here fuel n t ≠ .ub := by
  have noUb : ∀ fuel module m ref, resolveDefined tree here fuel module m ref ≠ .ub := by
    intro fuel
    induction fuel with
    | zero => intro _ _ _ h; rw [resolveDefined] at h; cases h
    | succ fuel ih =>
      intro module m ref h
      rcases resolveDefined_step tree here fuel module m ref with ⟨e, he, _⟩ | ⟨m', r', ps, _, he⟩ |
        ⟨c, n, k, m', r', ps, _, he⟩ | ⟨t, wm, _, _, he, _⟩
      · rw [he] at h; cases h
      · rw [he] at h; exact ih _ _ _ h
      · rw [he] at h
        rcases Res.bind_eq_ub.1 h with h | ⟨_, _, h⟩
        · exact ih _ _ _ h
        · cases h
      · rw [he] at h; cases h
  intro hr
  have hu := resolveType_untag tree here n fuel t
  rcases untag_cases t with ⟨m1, ref, ps, hd⟩ | hd
  · rw [hu.1 _ _ _ hd] at hr; exact noUb _ _ _ _ hr
  · rw [hu.2 hd] at hr
    rcases findModule_cases tree here with ⟨m, hm⟩ | ⟨e, hm⟩ <;> (rw [hm] at hr; cases hr)

/-- A bound for all the questions. -/
theorem defaults_bound {tree : Tree} {own : Name} {as : List Assignment} {P : Res Resolved → Prop}
    (h : DefaultsResolve tree own as P) : ∃ rf, ∀ a ∈ as, ∀ cs, components a.body = some cs → ∀ c ∈ cs, ∀ v,
      c.default = some (.defined v) → P (resolveType tree own rf c.name c.type) ∧ resolveType tree own rf c.name c.type ≠ .loop := by
  have key : ∀ l : List Ast.Comp, (∀ c ∈ l, ∀ v, c.default = some (.defined v) → ∃ r, ResolveResult tree own c.name c.type r ∧ P r) →
      ∃ k, ∀ k', k ≤ k' → ∀ c ∈ l, ∀ v, c.default = some (.defined v) →
        P (resolveType tree own k' c.name c.type) ∧ resolveType tree own k' c.name c.type ≠ .loop := by
    intro l
    induction l with
    | nil => intro _; exact ⟨0, fun _ _ c hc => by cases hc⟩
    | cons c l ih =>
      intro hl
      obtain ⟨k, hk⟩ := ih fun c hc => hl c (by simp [hc])
      by_cases hv : ∃ v, c.default = some (.defined v)
      · obtain ⟨v, hv⟩ := hv
        obtain ⟨r, ⟨h1, f, hf⟩, h2⟩ := hl c (by simp) v hv
        refine ⟨max k f, fun k' hk' c' hc' v' hv' => ?_⟩
        rcases List.mem_cons.1 hc' with rfl | hc'
        · have hle : ∀ k', f ≤ k' → (resolveType tree own f c'.name c'.type).le (resolveType tree own k' c'.name c'.type) := by
            intro k' hle
            induction hle with
            | refl => exact Res.le_refl _
            | step _ ih => exact Res.le_trans ih (resolveType_le ..)
          rcases hle k' (by omega) with h | h
          · rw [hf] at h; exact absurd h h1
          · rw [← h, hf]; exact ⟨h2, h1⟩
        · exact hk k' (by omega) c' hc' v' hv'
      · refine ⟨k, fun k' hk' c' hc' v' hv' => ?_⟩
        rcases List.mem_cons.1 hc' with rfl | hc'
        · exact absurd ⟨v', hv'⟩ hv
        · exact hk k' hk' c' hc' v' hv'
  obtain ⟨k, hk⟩ := key (as.flatMap fun a => (components a.body).getD []) (by
    intro c hc
    obtain ⟨a, ha, hc⟩ := List.mem_flatMap.1 hc
    cases hb : components a.body with
    | none => rw [hb] at hc; cases hc
    | some cs => rw [hb] at hc; exact h a ha cs hb c hc)
  exact ⟨k, fun a ha cs hb c hc => hk k (Nat.le_refl _) c (List.mem_flatMap.2 ⟨a, ha, by rw [hb]; exact hc⟩)⟩

/-- C54, termination: the pass ends, normally or with an exception, on every dependency graph, provided resolution of the
types of components with a default given by name ends. -/
theorem C54_terminates_partial (tree : Tree) (own : Name) (as : List Assignment)
    (h : DefaultsResolve tree own as fun _ => True) :
    (∃ out, ReorderResult tree own as (.ok out)) ∨ ∃ e, ReorderResult tree own as (.throw e) := by
  obtain ⟨rf, hrf⟩ := defaults_bound h
  cases hr : reorderAssignments tree own rf as with
  | ok out => exact .inl ⟨out, by simp, rf, hr⟩
  | throw e => exact .inr ⟨e, by simp, rf, hr⟩
  | ub =>
    exfalso
    rcases reorderAssignments_fails (z := .ub) (by rw [hr]; rfl) with
      (⟨a, _, cs, _, c, _, v, _, hf⟩ | ⟨h, _⟩ | ⟨h, _⟩) | ⟨h, _⟩
    · cases hc : resolveType tree own rf c.name c.type with
      | ub => exact resolveType_ne_ub _ _ _ _ _ hc
      | ok _ => rw [hc] at hf; cases hf
      | throw _ => rw [hc] at hf; cases hf
      | loop => rw [hc] at hf; cases hf
    all_goals cases h
  | loop =>
    exfalso
    rcases reorderAssignments_fails (z := .loop) (by rw [hr]; rfl) with
      (⟨a, ha, cs, hcs, c, hc, v, hv, hf⟩ | ⟨h, _⟩ | ⟨h, _⟩) | ⟨h, _⟩
    · have := (hrf a ha cs hcs c hc v hv).2
      cases hc : resolveType tree own rf c.name c.type with
      | loop => exact this hc
      | ok _ => rw [hc] at hf; cases hf
      | throw _ => rw [hc] at hf; cases hf
      | ub => rw [hc] at hf; cases hf
    all_goals cases h

/-- C54, undefined references: if the pass ends normally, every name a definition refers to is defined.  For modules without a
nested SET that has a DEFAULT given by name. -/
theorem C54_undefined_partial (tree : Tree) (own : Name) (as out : List Assignment) (hs : NoInnerSetDefaults as)
    (h : ReorderResult tree own as (.ok out)) : ∀ a ∈ as, ∀ n, Refs tree own a.body n → n ∈ as.map (·.name) := by
  obtain ⟨_, rf, h⟩ := h
  obtain ⟨h1, _, _, _, h5⟩ := reorderAssignments_ok h
  intro a ha n hn
  obtain ⟨a', ha', hname⟩ := List.mem_map.1 ((h1 a.name).2 (List.mem_map_of_mem ha))
  obtain ⟨b, k1, _, k3⟩ := h5 a' ha'
  rw [hname, findLastAssignment_of_mem (reorder_nodup h) ha] at k1
  cases k1
  exact findLastAssignment_isSome.1 (k3 hs n hn)

/-- C54, cycles: if the pass ends normally, there is no illegal cycle.  For modules without a nested SET that has a
DEFAULT given by name. -/
theorem C54_cycles_partial (tree : Tree) (own : Name) (as out : List Assignment) (hs : NoInnerSetDefaults as)
    (h : ReorderResult tree own as (.ok out)) : ¬ IllegalCycle tree own as := by
  obtain ⟨_, rf, h⟩ := h
  exact reorder_no_cycle hs h

/-- C54 in one sentence, under both conditions: the pass ends, and throws if something is wrong. -/
theorem C54_rejects_partial (tree : Tree) (own : Name) (as : List Assignment) (hs : NoInnerSetDefaults as)
    (hd : DefaultsResolve tree own as fun _ => True) : ∃ r, ReorderResult tree own as r ∧
    (((∃ a ∈ as, ∃ n, Refs tree own a.body n ∧ n ∉ as.map (·.name)) ∨ IllegalCycle tree own as) → ∃ e, r = .throw e) := by
  rcases C54_terminates_partial tree own as hd with ⟨out, h⟩ | ⟨e, h⟩
  · refine ⟨_, h, fun hw => ?_⟩
    rcases hw with ⟨a, ha, n, h1, h2⟩ | hc
    · exact absurd (C54_undefined_partial tree own as out hs h a ha n h1) h2
    · exact absurd hc (C54_cycles_partial tree own as out hs h)
  · exact ⟨_, h, fun _ => ⟨e, rfl⟩⟩

/-- The converse: a module is accepted if its names are distinct, everything it mentions is defined (a DEFAULT that
is an item of a *referenced* ENUMERATED counts as a mention: see `C54_enum_violated`), its components refer to its own types
only, its SET definitions have no DEFAULT given by name, and there is no illegal cycle. -/
theorem C54_accepts_partial (tree : Tree) (own : Name) (as : List Assignment) (hn : (as.map (·.name)).Nodup)
    (hm : ∀ a ∈ as, ∀ n, Mentions own a.body n → n ∈ as.map (·.name)) (hl : LocalComponents own as) (hs : NoSetDefaults as)
    (hd : DefaultsResolve tree own as fun r => ∃ x, r = .ok x) (hc : ¬ IllegalCycle tree own as) :
    ∃ out, ReorderResult tree own as (.ok out) := by
  obtain ⟨rf, hrf⟩ := defaults_bound hd
  cases hr : reorderAssignments tree own rf as with
  | ok out => exact ⟨out, by simp, rf, hr⟩
  | throw _ | ub | loop =>
    exfalso
    rcases reorderAssignments_fails (by rw [hr]; rfl) with
      (⟨a, ha, cs, hcs, c, hc', v, hv, hf⟩ | ⟨_, a, ha, n, hf, hu⟩ | ⟨_, hi⟩) | ⟨_, h⟩
    · obtain ⟨⟨x, hx⟩, _⟩ := hrf a ha cs hcs c hc' v hv
      rw [hx] at hf; cases hf
    · have := findLastAssignment_isSome.2 (hm a ha n (hf.mentioned ha hl))
      rw [hu] at this; cases this
    · exact hc (hi (homely hl hs))
    · exact h hn

/-! ### A module that meets all the conditions

`Tree ::= SEQUENCE { value Item DEFAULT zero, kids Kids OPTIONAL, next Tree OPTIONAL }`, `Kids ::= SEQUENCE OF Tree`,
`Item ::= INTEGER`, `zero Item ::= 0`. -/
def recursiveModule : List Assignment :=
  [⟨"Tree", .type (.sequence [.mk "value" (.defined none "Item" []) false (some (.defined "zero")) none .static_,
      .mk "kids" (.defined none "Kids" []) true none none .static_,
      .mk "next" (.defined none "Tree" []) true none none .static_] false), []⟩,
   ⟨"Kids", .type (.seqOf none (.defined none "Tree" []) .static_), []⟩,
   ⟨"Item", .type (.leaf .integer), []⟩,
   ⟨"zero", .value (.defined none "Item" []) (.int 0), []⟩]

def recursiveTree : Tree := ⟨[⟨"M", .explicit_, [], recursiveModule⟩]⟩

/-- Its result: `Item`, `zero`, `Tree` with two dynamic components, `Kids` with dynamic storage. -/
def recursiveResult : List Assignment :=
  [⟨"Item", .type (.leaf .integer), []⟩,
   ⟨"zero", .value (.defined none "Item" []) (.int 0), []⟩,
   ⟨"Tree", .type (.sequence [.mk "value" (.defined none "Item" []) false (some (.defined "zero")) none .static_,
      .mk "kids" (.defined none "Kids" []) true none none .dynamic,
      .mk "next" (.defined none "Tree" []) true none none .dynamic] false), []⟩,
   ⟨"Kids", .type (.seqOf none (.defined none "Tree" []) .dynamic), []⟩]

theorem recursive_reorder : ReorderResult recursiveTree "M" recursiveModule (.ok recursiveResult) := ⟨by simp, 3, by rfl⟩

theorem inside_first {t u : AType} (h : Inside t u) : ∃ c, Child t c := by
  induction h with
  | single h => exact ⟨_, h⟩
  | tail _ _ ih => exact ih

theorem not_inside_defined {m : Option Name} {n : Name} {ps : List AType} {u : AType} : ¬ Inside (.defined m n ps) u := by
  intro h
  obtain ⟨c, h⟩ := inside_first h
  cases h

theorem inside_step {t u : AType} (h : Inside t u) : ∃ c, Child t c ∧ (u = c ∨ Inside c u) := by
  induction h with
  | single h => exact ⟨_, h, .inl rfl⟩
  | tail _ h2 ih =>
    obtain ⟨c, h3, rfl | h4⟩ := ih
    · exact ⟨_, h3, .inr (.single h2)⟩
    · exact ⟨c, h3, .inr (.tail h4 h2)⟩

theorem recursive_noInnerSets : NoInnerSetDefaults recursiveModule := by
  intro a ha
  simp only [recursiveModule, List.mem_cons, List.not_mem_nil, or_false] at ha
  have hdef : ∀ m n ps, ¬ SetWithDefaultName (.defined m n ps) := by rintro m n ps ⟨_, _, h, _⟩; cases h
  rcases ha with rfl | rfl | rfl | rfl
  · refine ⟨fun t ht u hu => ?_, fun t v h => by cases h⟩
    cases ht
    obtain ⟨c, hc, hu⟩ := inside_step hu
    cases hc with
    | sequence hc =>
      simp only [List.mem_cons, List.not_mem_nil, or_false] at hc
      rcases hc with rfl | rfl | rfl
      all_goals
        rcases hu with rfl | hu
        · exact hdef _ _ _
        · exact absurd hu not_inside_defined
  · refine ⟨fun t ht u hu => ?_, fun t v h => by cases h⟩
    cases ht
    obtain ⟨c, hc, hu⟩ := inside_step hu
    cases hc with
    | seqOf =>
      rcases hu with rfl | hu
      · exact hdef _ _ _
      · exact absurd hu not_inside_defined
  · refine ⟨fun t ht u hu => ?_, fun t v h => by cases h⟩
    cases ht
    obtain ⟨c, hc⟩ := inside_first hu
    cases hc
  · refine ⟨fun t h => (by cases h), fun t v h u hu => ?_⟩
    cases h
    rcases hu with rfl | hu
    · exact hdef _ _ _
    · exact absurd hu not_inside_defined

theorem recursive_local : LocalComponents "M" recursiveModule := by
  intro a ha cs hcs c hc m n ps h
  simp only [recursiveModule, List.mem_cons, List.not_mem_nil, or_false] at ha
  rcases ha with rfl | rfl | rfl | rfl
  · cases hcs
    simp only [List.mem_cons, List.not_mem_nil, or_false] at hc
    rcases hc with rfl | rfl | rfl
    all_goals
      rcases h with h | h
      · cases h; exact .inl rfl
      · exact absurd h not_inside_defined
  · cases hcs
  · cases hcs
  · cases hcs

theorem recursive_defaults : DefaultsResolve recursiveTree "M" recursiveModule fun r => ∃ x, r = .ok x := by
  intro a ha cs hcs c hc v hv
  simp only [recursiveModule, List.mem_cons, List.not_mem_nil, or_false] at ha
  rcases ha with rfl | rfl | rfl | rfl
  · cases hcs
    simp only [List.mem_cons, List.not_mem_nil, or_false] at hc
    rcases hc with rfl | rfl | rfl
    · exact ⟨.ok ⟨"Item", .leaf .integer, recursiveTree.modules[0]⟩, ⟨by simp, 3, by rfl⟩, _, rfl⟩
    · cases hv
    · cases hv
  · cases hcs
  · cases hcs
  · cases hcs

/-- All the conditions of `C53_order_partial`, `C53_dynamic_partial`, `C54_rejects_partial` and `C54_accepts_partial` hold of
this module; two of its assignments are on cycles and get dynamic storage. -/
example : NoInnerSetDefaults recursiveModule ∧ LocalComponents "M" recursiveModule ∧ NoSetDefaults recursiveModule ∧
    (DefaultsResolve recursiveTree "M" recursiveModule fun r => ∃ x, r = .ok x) ∧
    (recursiveModule.map (·.name)).Nodup ∧ ¬ IllegalCycle recursiveTree "M" recursiveModule ∧
    (∀ a ∈ recursiveModule, ∀ n, Mentions "M" a.body n → n ∈ recursiveModule.map (·.name)) ∧
    InOrder recursiveTree "M" recursiveResult := by
  refine ⟨recursive_noInnerSets, recursive_local, ?_, recursive_defaults, by decide,
    C54_cycles_partial _ _ _ _ recursive_noInnerSets recursive_reorder, ?_,
    (C53_order_partial _ _ _ _ recursive_noInnerSets recursive_reorder).2⟩
  · intro a ha t ht
    simp only [recursiveModule, List.mem_cons, List.not_mem_nil, or_false] at ha
    rcases ha with rfl | rfl | rfl | rfl
    all_goals (cases ht; try (rintro ⟨_, _, h, _⟩; cases h))
  · intro a ha n hn
    simp only [recursiveModule, List.mem_cons, List.not_mem_nil, or_false] at ha
    rcases ha with rfl | rfl | rfl | rfl
    · cases hn with
      | type hn =>
        cases hn with
        | sequence hc _ hu =>
          simp only [List.mem_cons, List.not_mem_nil, or_false] at hc
          rcases hc with rfl | rfl | rfl <;> (cases hu; decide)
        | sequenceDefault hc hd _ =>
          simp only [List.mem_cons, List.not_mem_nil, or_false] at hc
          rcases hc with rfl | rfl | rfl <;> (cases hd; try decide)
    · cases hn with
      | type hn => cases hn with | seqOf _ hu => cases hu; decide
    · cases hn with
      | type hn => cases hn
    · cases hn with
      | valueType hn => cases hn; decide

/-- A module with an illegal cycle: `A ::= SEQUENCE { b B }`, `B ::= [0] A`. -/
def illegalModule : List Assignment :=
  [⟨"A", .type (.sequence [.mk "b" (.defined none "B" []) false none none .static_] false), []⟩,
   ⟨"B", .type (.prefixed .contextSpecific 0 .automatic (.defined none "A" [])), []⟩]

example : IllegalCycle ⟨[⟨"M", .explicit_, [], illegalModule⟩]⟩ "M" illegalModule ∧
    ReorderResult ⟨[⟨"M", .explicit_, [], illegalModule⟩]⟩ "M" illegalModule (.throw .circular) := by
  refine ⟨⟨"A", .tail (.single (b := "B") ?_) ?_⟩, by simp, 1, by rfl⟩
  · exact .component (a := illegalModule[0]) (List.mem_cons_self ..) rfl (List.mem_singleton.2 rfl) (.inl rfl)
      (.type (.reference (.inl rfl)))
  · exact .other (a := illegalModule[1]) (by simp [illegalModule]) rfl (fun h => h) (.type (.prefixed (.reference (.inl rfl))))

/-! ### Where C54 fails -/

/-- `S ::= SEQUENCE { x A DEFAULT v }`, `v A ::= 0`, `A ::= M2.B` in module `M1`; `B ::= M1.A` in module `M2`. -/
def loopModule : List Assignment :=
  [⟨"S", .type (.sequence [.mk "x" (.defined none "A" []) false (some (.defined "v")) none .static_] false), []⟩,
   ⟨"v", .value (.defined none "A" []) (.int 0), []⟩,
   ⟨"A", .type (.defined (some "M2") "B" []), []⟩]

def loopTree : Tree := ⟨[⟨"M1", .explicit_, [], loopModule⟩,
  ⟨"M2", .explicit_, [], [⟨"B", .type (.defined (some "M1") "A" []), []⟩]⟩]⟩

/-- C54 is false: on a cycle of references through another module the compiler does not end. -/
theorem C54_terminates_violated : ∀ rf, reorderAssignments loopTree "M1" rf loopModule = .loop := by
  have hl : ∀ fuel, resolveDefined loopTree "M1" fuel "M1" (some "M2") "B" = .loop ∧
      resolveDefined loopTree "M1" fuel "M2" (some "M1") "A" = .loop := by
    intro fuel
    induction fuel with
    | zero => exact ⟨rfl, rfl⟩
    | succ fuel ih =>
      constructor
      · rw [resolveDefined]
        show resolveDefined loopTree "M1" fuel "M2" (some "M1") "A" = .loop
        exact ih.2
      · rw [resolveDefined]
        show resolveDefined loopTree "M1" fuel "M1" (some "M2") "B" = .loop
        exact ih.1
  have hx : ∀ rf, resolveType loopTree "M1" rf "x" (.defined none "A" []) = .loop := by
    intro rf
    rw [resolveType]
    cases rf with
    | zero => rfl
    | succ rf =>
      rw [resolveDefined]
      show resolveDefined loopTree "M1" rf "M1" (some "M2") "B" = .loop
      exact (hl rf).1
  intro rf
  simp [reorderAssignments, loopModule, resolveDeps, findLastAssignment, initState, followAssignment, followComps,
    followComp, followAll, dependsOn, Comp.default, Comp.type, Comp.name, followDefault, hx, localDeps, dependencies, Dep.isLocal]

/-- So the full statement does not hold. -/
theorem C54_violated : ¬ C54_statement := by
  intro h
  obtain ⟨r, ⟨h1, rf, h2⟩, _⟩ := h loopTree "M1" loopModule
  rw [C54_terminates_violated] at h2
  exact h1 h2.symm

/-- An undefined DEFAULT of a nested SET is not noticed: `A ::= SEQUENCE { s SET { i INTEGER DEFAULT v } }` alone is accepted. -/
theorem C54_undefined_violated : ReorderResult ⟨[⟨"M", .explicit_, [], [innerSet[0]]⟩]⟩ "M" [innerSet[0]] (.ok [innerSet[0]]) ∧
    Refs ⟨[⟨"M", .explicit_, [], [innerSet[0]]⟩]⟩ "M" innerSet[0].body "v" := by
  refine ⟨⟨by simp, 1, by rfl⟩, .type (.sequence (List.mem_singleton.2 rfl) (fun _ => trivial) (.setDefault
    (List.mem_singleton.2 rfl) rfl ?_))⟩
  rintro (h | ⟨nm, n, m, h⟩)
  · cases h
  · generalize hl : AType.leaf .enumerated = l at h
    cases h with
    | reference h => simp [Comp.type, untag] at h
    | itself => simp [Comp.type, untag] at hl

/-- `E ::= ENUMERATED { red }`, `A ::= SEQUENCE { e E DEFAULT red, next A OPTIONAL }`. -/
def enumModule : List Assignment :=
  [⟨"E", .type (.leaf .enumerated), []⟩,
   ⟨"A", .type (.sequence [.mk "e" (.defined none "E" []) false (some (.defined "red")) none .static_,
      .mk "next" (.defined none "A" []) true none none .static_] false), []⟩]

/-- Every reference of this module is defined and there is no illegal cycle, yet it is rejected as having an undefined reference:
the item `red` of the enumeration is taken for a value. -/
theorem C54_enum_violated : ReorderResult ⟨[⟨"M", .explicit_, [], enumModule⟩]⟩ "M" enumModule (.throw .undefinedType) ∧
    (∀ a ∈ enumModule, ∀ n, Refs ⟨[⟨"M", .explicit_, [], enumModule⟩]⟩ "M" a.body n → n ∈ enumModule.map (·.name)) := by
  refine ⟨⟨by simp, 3, by rfl⟩, fun a ha n hn => ?_⟩
  simp only [enumModule, List.mem_cons, List.not_mem_nil, or_false] at ha
  rcases ha with rfl | rfl
  · cases hn with
    | type hn => cases hn
  · cases hn with
    | type hn =>
      cases hn with
      | sequence hc _ hu =>
        simp only [List.mem_cons, List.not_mem_nil, or_false] at hc
        rcases hc with rfl | rfl <;> (cases hu; decide)
      | sequenceDefault hc hd he =>
        simp only [List.mem_cons, List.not_mem_nil, or_false] at hc
        rcases hc with rfl | rfl
        · refine absurd (.inr ⟨"e", "E", "M", .reference (m := none) (ref := "E") (ps := []) ?_ ?_⟩) he
          · simp [Comp.type, untag]
          · exact .here (by simp [lookup, enumModule]) (by intro m r h; cases h)
        · cases hd

/-- `A ::= SEQUENCE { x M2.A }` in module `M1`, `A ::= INTEGER` in module `M2`. -/
def foreignModule : List Assignment :=
  [⟨"A", .type (.sequence [.mk "x" (.defined (some "M2") "A" []) false none none .static_] false), []⟩]

/-- This module refers to nothing of its own, yet it is rejected as circular: the type `A` of `M2` is taken for the `A` of the
module itself. -/
theorem C54_foreign_violated : ReorderResult ⟨[⟨"M1", .explicit_, [], foreignModule⟩,
      ⟨"M2", .explicit_, [], [⟨"A", .type (.leaf .integer), []⟩]⟩]⟩ "M1" foreignModule (.throw .circular) ∧
    ∀ a ∈ foreignModule, ∀ n, ¬ Mentions "M1" a.body n := by
  refine ⟨⟨by simp, 1, by rfl⟩, fun a ha n hn => ?_⟩
  rw [foreignModule, List.mem_singleton] at ha
  subst ha
  cases hn with
  | type hn =>
    cases hn with
    | sequence hc _ hu =>
      rw [List.mem_singleton] at hc
      subst hc
      cases hu with
      | reference h => simp at h
    | sequenceDefault hc hd _ =>
      rw [List.mem_singleton] at hc
      subst hc
      cases hd

end FastBer.Props
