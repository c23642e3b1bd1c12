import Verif.Proofs.CompilesNames
/-!
# The generated code is valid C++
-/
namespace FastBer.Ast
open FastBer.Ast.Spec FastBer.Spec

/-! ## Trees that differ in the order of assignments only -/

/-- `out` has the assignments of `S`. -/
structure KeptTree (S out : Tree) : Prop where
  stored : StoredTree S out
  kept : ∀ m3 ∈ out.modules, ∃ m2 ∈ S.modules, m3.name = m2.name ∧ m3.tagging = m2.tagging ∧ ∀ a, a ∈ m3.assignments ↔ a ∈ m2.assignments

theorem occurs_mem {tree : Tree} {m : Module} {t : AType} (h : Occurs tree m t) : m ∈ tree.modules := by
  induction h <;> assumption

section
variable {S out : Tree} (h : KeptTree S out) {m2 m3 : Module} (hm2 : m2 ∈ S.modules) (hk : ∀ a, a ∈ m3.assignments ↔ a ∈ m2.assignments)
include hm2 hk

theorem kept_occurs {t : AType} (ho : Occurs out m3 t) : Occurs S m2 t := by
  induction ho with
  | assigned _ ha hb => exact .assigned hm2 ((hk _).1 ha) hb
  | sequence _ hc ih => exact .sequence ih hc
  | set _ hc ih => exact .set ih hc
  | choice _ hc ih => exact .choice ih hc
  | seqOf _ ih => exact .seqOf ih
  | setOf _ ih => exact .setOf ih
  | prefixed _ ih => exact .prefixed ih

theorem kept_field {n : Name} {t : AType} (hf : Spec.Field out m3 n t) : Spec.Field S m2 n t := by
  cases hf with
  | sequence ho hc => exact .sequence (kept_occurs hm2 hk ho) hc
  | set ho hc => exact .set (kept_occurs hm2 hk ho) hc
  | choice ho hc => exact .choice (kept_occurs hm2 hk ho) hc

end

/-- The same target. -/
theorem KeptTree.target {S out : Tree} (h : KeptTree S out) {m2 m3 w2 : Module} (hn : m3.name = m2.name) {q : Option Name} {ref : Name} {u : AType}
    (ht : Spec.target S m2 q ref = some (w2, u)) : ∃ w3, Spec.target out m3 q ref = some (w3, u) := by
  obtain ⟨h1, h2, a, h3, h4, h5⟩ := target_mem ht
  obtain ⟨w3, h6, h7⟩ := h.stored.stored w2 h1
  obtain ⟨w2', h8, h9, -, h10⟩ := h.kept w3 h6
  have e : w2' = w2 := by
    have := (find_key (key := Module.name) h.stored.distinct.modules h8 (h9.symm.trans h7.name)).symm.trans (find_key (key := Module.name) h.stored.distinct.modules h1 rfl)
    exact Option.some.inj this
  subst e
  exact ⟨w3, h.stored.distinct'.target h6 (by rw [h9, h2, hn]) ((h10 a).2 h3) h4 h5⟩

/-! ## Shapes -/

theorem isStruct_inner (own : Name) : ∀ (t : AType) (k : Nat), isStruct (untag (splitInner own (findNested own t k)).1) = false := by
  intro t
  induction t using untag.induct with
  | case1 c n md t ih =>
    intro k
    rcases splitInner_shape own (.prefixed c n md t) k with ⟨_, h2, _⟩ | ⟨h1, _⟩
    · rw [h2]
      exact ih k
    · cases h1
  | case2 t hne =>
    intro k
    rcases splitInner_shape own t k with ⟨h1, h2, _⟩ | ⟨_, p, j, h2, _⟩
    · rw [h2]
      cases t with
      | sequence | set | choice => cases h1
      | prefixed => exact absurd rfl (hne _ _ _ _)
      | _ => rfl
    · rw [h2]; rfl

theorem isStruct_nested (own : Name) (t : AType) (k : Nat) (h : isStruct (untag (findNested own t k).1) = true) : isStruct t = true := by
  cases t with
  | prefixed c n md t =>
    have h : isStruct (untag (splitInner own (findNested own t k)).1) = true := h
    rw [isStruct_inner] at h
    cases h
  | sequence | set | choice => rfl
  | leaf | objField | defined | seqOf | setOf => cases h

theorem nested_comp {own : Name} {cs : List Comp} {k : Nat} {c' : Comp} (h : c' ∈ (findNestedComps own cs k).1) :
    ∃ c ∈ cs, ∃ j, c' = .mk c.name (findNested own c.type j).1 c.optional c.default c.componentsOf c.storage ∧
      ∀ p ∈ (findNested own c.type j).2.1, p ∈ (findNestedComps own cs k).2.1 := by
  obtain ⟨i, hi⟩ := List.getElem?_of_mem h
  obtain ⟨c, j, h1, h2, h3⟩ := findNestedComps_get _ _ _ hi
  exact ⟨c, List.mem_of_getElem? h1, j, h2, h3⟩

theorem nested_alt {own : Name} {as : List Named} {k : Nat} {a' : Named} (h : a' ∈ (findNestedAlts own as k).1) :
    ∃ a ∈ as, ∃ j, a' = .mk a.name (findNested own a.type j).1 ∧ ∀ p ∈ (findNested own a.type j).2.1, p ∈ (findNestedAlts own as k).2.1 := by
  obtain ⟨i, hi⟩ := List.getElem?_of_mem h
  obtain ⟨c, j, h1, h2, h3⟩ := findNestedAlts_get _ _ _ hi
  exact ⟨c, List.mem_of_getElem? h1, j, h2, h3⟩

theorem nestedComps_names (own : Name) : ∀ (cs : List Comp) (k : Nat), (findNestedComps own cs k).1.map (·.name) = cs.map (·.name)
  | [], _ => rfl
  | .mk n t o d co s :: cs, k => by
    rw [findNestedComps]
    exact congrArg (n :: ·) (nestedComps_names own cs _)

theorem nestedAlts_names (own : Name) : ∀ (as : List Named) (k : Nat), (findNestedAlts own as k).1.map (·.name) = as.map (·.name)
  | [], _ => rfl
  | .mk n t :: as, k => by
    rw [findNestedAlts]
    exact congrArg (n :: ·) (nestedAlts_names own as _)

theorem nested_sequence {own : Name} {t : AType} {k : Nat} {cs' : List Comp} {e : Bool} (h : AType.sequence cs' e = (findNested own t k).1) :
    ∃ cs, t = .sequence cs e ∧ cs' = (findNestedComps own cs k).1 := by
  cases t with
  | sequence cs e' =>
    obtain ⟨h1, h2⟩ := AType.sequence.injEq .. ▸ h
    exact ⟨cs, by rw [h2], h1⟩
  | _ => cases h

theorem nested_set {own : Name} {t : AType} {k : Nat} {cs' : List Comp} {e : Bool} (h : AType.set cs' e = (findNested own t k).1) :
    ∃ cs, t = .set cs e ∧ cs' = (findNestedComps own cs k).1 := by
  cases t with
  | set cs e' =>
    obtain ⟨h1, h2⟩ := AType.set.injEq .. ▸ h
    exact ⟨cs, by rw [h2], h1⟩
  | _ => cases h

theorem nested_choice {own : Name} {t : AType} {k : Nat} {as' : List Named} {s : Storage} (h : AType.choice as' s = (findNested own t k).1) :
    ∃ as, t = .choice as s ∧ as' = (findNestedAlts own as k).1 := by
  cases t with
  | choice as s' =>
    obtain ⟨h1, h2⟩ := AType.choice.injEq .. ▸ h
    exact ⟨as, by rw [h2], h1⟩
  | _ => cases h

/-! ## Where structs come from -/

/-- A name the code of a struct has. -/
inductive PlacedAs (src : Tree) (m : Module) : Name → AType → Prop where
  | called {n : Name} {t : AType} : Called src m n t → PlacedAs src m n t
  | madeUp {n : Name} {t : AType} : MadeUp n → Occurs src m t → PlacedAs src m n t
  | renamed {n : Name} {t : AType} : Spec.Field src m n t → PlacedAs src m (typeName n ++ "_") t

theorem field_occurs {src : Tree} {m : Module} {n : Name} {t : AType} (h : Spec.Field src m n t) : Occurs src m t := by
  cases h with
  | sequence ho hc => exact .sequence ho hc
  | set ho hc => exact .set ho hc
  | choice ho hc => exact .choice ho hc

theorem PlacedAs.occurs {src : Tree} {m : Module} {n : Name} {t : AType} (h : PlacedAs src m n t) : Occurs src m t := by
  cases h with
  | called h =>
    cases h with
    | assigned hm ha hb => exact .assigned hm ha hb
    | field h => exact field_occurs h
  | madeUp _ h => exact h
  | renamed h => exact field_occurs h

theorem member_placed {src : Tree} {m : Module} {n p : Name} {t : AType} (h : Spec.Field src m n t) : PlacedAs src m (memberName n p) t := by
  unfold memberName
  split
  · exact .renamed h
  · exact .called (.field h)

theorem unended_member {n p : Name} (h : Unended (typeName n)) : Unended (memberName n p) := by
  unfold memberName
  split
  · have key : ∀ (e : String) (c : Char) (l : List Char), e.toList = l ++ [c] → c ≠ '_' → ∀ q, typeName n ++ "_" ≠ q ++ e := by
      intro e c l he hc q hq
      have := congrArg String.toList hq
      rw [String.toList_append, String.toList_append, he, ← List.append_assoc] at this
      have := (List.append_inj' this rfl).2
      cases this
      exact hc rfl
    exact ⟨key _ 'd' "Containe".toList (by decide) (by decide), key _ 's' "Value".toList (by decide) (by decide)⟩
  · exact h

section
variable {src S out : Tree} (h : SplitTree src S) (hs : SupportedSource src) (ha : Accepted src) (hc : CompilableSourceNames src) (hK : KeptTree S out)

include hs hc in
theorem unended_field {m : Module} {n : Name} {t : AType} (hf : Spec.Field src m n t) : Unended (typeName n) :=
  ⟨(hs.fieldNames m n t hf).2, hc.fieldNames m n t hf⟩

theorem unended_madeUp {n : Name} (hn : MadeUp n) : Unended n :=
  ⟨fun p => madeUp_ne_suffix hn (s := "Contained") (cs := "Containe".toList) (d := 'd') (by decide) (by decide) p,
    fun p => madeUp_ne_suffix hn (s := "Values") (cs := "Value".toList) (d := 's') (by decide) (by decide) p⟩

include hs hc in
theorem PlacedAs.unended {m : Module} {n : Name} {t : AType} (hp : PlacedAs src m n t) : Unended n := by
  cases hp with
  | called h =>
    cases h with
    | assigned hm ha _ => exact ⟨(hs.typeNames m hm _ ha).2, hc.assignedNames m hm _ ha⟩
    | field h => exact unended_field hs hc h
  | madeUp h _ => exact unended_madeUp h
  | @renamed n _ h =>
    have := unended_member (p := typeName n) (unended_field hs hc h)
    rwa [memberName, if_pos rfl] at this

/-- The module of the source a module of the output was made of. -/
structure MadeOf (src S out : Tree) (m m2 m3 : Module) : Prop where
  source : m ∈ src.modules
  split : m2 ∈ S.modules
  output : m3 ∈ out.modules
  made : SplitModule m m2
  name : m3.name = m.name
  tagging : m3.tagging = m.tagging
  kept : ∀ a, a ∈ m3.assignments ↔ a ∈ m2.assignments

include h hK in
theorem madeOf {m3 : Module} (hm : m3 ∈ out.modules) : ∃ m m2, MadeOf src S out m m2 m3 := by
  obtain ⟨m2, h1, h2, h3, h4⟩ := hK.kept m3 hm
  obtain ⟨m, h5, h6⟩ := h.only m2 h1
  exact ⟨m, m2, h5, h1, hm, h6, h2.trans h6.name, h3.trans h6.tagging, h4⟩

include h in
theorem MadeOf.comes {m m2 m3 : Module} (hM : MadeOf src S out m m2 m3) {t : AType} (ho : Occurs out m3 t) : Comes src S m m2 t := by
  obtain ⟨-, m', h1, h2, -, -, h3⟩ := h.occurs (kept_occurs hM.split hM.kept ho)
  have e : m' = m := by
    have := (find_key (key := Module.name) h.plain.modules h1 (h2.symm.trans hM.made.name)).symm.trans (find_key (key := Module.name) h.plain.modules hM.source rfl)
    exact Option.some.inj this
  exact e ▸ h3

include h in
/-- What is not a reference is what has become of a type of the source. -/
theorem MadeOf.nested {m m2 m3 : Module} (hM : MadeOf src S out m m2 m3) {t' : AType} (ho : Occurs out m3 t') (hne : ∀ q ref ps, t' ≠ .defined q ref ps) :
    ∃ t k, Occurs src m t ∧ t' = (findNested m.name t k).1 := by
  have hcm := hM.comes h ho
  cases hcm with
  | alias => exact absurd rfl (hne _ _ _)
  | name => exact absurd rfl (hne _ _ _)
  | made hso _ => exact ⟨_, _, hso, rfl⟩

theorem placed_occurs {tree : Tree} {m : Module} {n : Name} {t : AType} (hp : Placed tree m n t) : Occurs tree m t := by
  induction hp with
  | assigned hm ha hb => exact .assigned hm ha hb
  | sequence _ hc ih => exact .sequence ih hc
  | set _ hc ih => exact .set ih hc
  | choice _ hc ih => exact .choice ih hc
  | seqOf _ ih => exact .seqOf ih
  | setOf _ ih => exact .setOf ih
  | prefixed _ ih => exact .prefixed ih

include h in
theorem MadeOf.element {m m2 m3 : Module} (hM : MadeOf src S out m m2 m3) {t' : AType} {u : AType} (ho : Occurs out m3 t')
    (hu : (∃ n s, t' = .seqOf n u s) ∨ (∃ n s, t' = .setOf n u s) ∨ ∃ c n k, t' = .prefixed c n k u) : isStruct (untag u) = false := by
  obtain ⟨t, k, hso, he⟩ := hM.nested h ho (by rcases hu with ⟨_, _, rfl⟩ | ⟨_, _, rfl⟩ | ⟨_, _, _, rfl⟩ <;> nofun)
  rcases hu with ⟨n, s, rfl⟩ | ⟨n, s, rfl⟩ | ⟨c, n, k', rfl⟩
  · cases t with
    | seqOf n' t s' =>
      obtain ⟨-, rfl, -⟩ := AType.seqOf.injEq .. ▸ he
      exact isStruct_inner ..
    | _ => cases he
  · cases t with
    | setOf n' t s' =>
      obtain ⟨-, rfl, -⟩ := AType.setOf.injEq .. ▸ he
      exact isStruct_inner ..
    | _ => cases he
  · cases t with
    | prefixed _ _ _ t =>
      obtain ⟨-, -, -, rfl⟩ := AType.prefixed.injEq .. ▸ he
      exact isStruct_inner ..
    | _ => cases he

theorem isStruct_untag {t : AType} (h : isStruct t = true) : isStruct (untag t) = true := by
  cases t with
  | sequence | set | choice => rfl
  | _ => cases h

include h in
/-- Every struct of the output is one of the source. -/
theorem MadeOf.placed {m m2 m3 : Module} (hM : MadeOf src S out m m2 m3) {n : Name} {t' : AType} (hp : Placed out m3 n t') (hst : isStruct t' = true) :
    ∃ t k, PlacedAs src m n t ∧ t' = (findNested m.name t k).1 := by
  induction hp with
  | @assigned a' t' hm ha' hb =>
    have ha2 := (hM.kept a').1 ha'
    obtain ⟨hno, j, rfl⟩ := hM.made
    obtain ⟨a, h1, t, u, i, h2, h3, rfl, -, h5⟩ := split_from _ _ _ ha2 hb
    rcases mem_splitImports h1 with h1 | ⟨i', hi, x, hx, rfl⟩
    · refine ⟨u, i, ?_, rfl⟩
      rcases h5 with ⟨h5, rfl⟩ | h5
      · rw [h5]; exact .called (.assigned hM.source h1 h2)
      · exact .madeUp h5 (occurs_within h3 (.assigned hM.source h1 h2))
    · cases h2
      rcases within_cases h3 with rfl | ⟨c, hc', -⟩
      · cases hst
      · cases hc'
  | sequence hp hcm ih =>
    obtain ⟨t, k, h1, h2⟩ := ih rfl
    obtain ⟨cs, rfl, rfl⟩ := nested_sequence h2
    obtain ⟨c, hcs, j, rfl, -⟩ := nested_comp hcm
    exact ⟨c.type, j, member_placed (.sequence h1.occurs hcs), rfl⟩
  | set hp hcm ih =>
    obtain ⟨t, k, h1, h2⟩ := ih rfl
    obtain ⟨cs, rfl, rfl⟩ := nested_set h2
    obtain ⟨c, hcs, j, rfl, -⟩ := nested_comp hcm
    exact ⟨c.type, j, member_placed (.set h1.occurs hcs), rfl⟩
  | choice hp hcm ih =>
    obtain ⟨t, k, h1, h2⟩ := ih rfl
    obtain ⟨cs, rfl, rfl⟩ := nested_choice h2
    obtain ⟨c, hcs, j, rfl, -⟩ := nested_alt hcm
    exact ⟨c.type, j, .called (.field (.choice h1.occurs hcs)), rfl⟩
  | seqOf hp ih =>
    have := hM.element h (placed_occurs hp) (.inl ⟨_, _, rfl⟩)
    rw [isStruct_untag hst] at this
    cases this
  | setOf hp ih =>
    have := hM.element h (placed_occurs hp) (.inr (.inl ⟨_, _, rfl⟩))
    rw [isStruct_untag hst] at this
    cases this
  | prefixed hp ih =>
    have := hM.element h (placed_occurs hp) (.inr (.inr ⟨_, _, _, rfl⟩))
    rw [isStruct_untag hst] at this
    cases this

end

end FastBer.Ast
