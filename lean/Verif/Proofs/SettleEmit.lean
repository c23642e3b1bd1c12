import Verif.Proofs.Settle
/-!
# The declarations for supported, legal schemas are written without an error
-/
namespace FastBer.Ast
open Spec FastBer.Props

/-! ## `type_as_string` -/

theorem identifier_leafList {tree : Tree} (mod : Module) : ∀ (t : AType), (∃ k, untag t = .leaf k) ∨ isList (untag t) = true →
    ∃ i, Settles (fun f => identifier tree f mod t) i
  | .leaf k, _ => ⟨_, (Settles.const (leafInfo k)).succ fun f => by rw [identifier]⟩
  | .seqOf _ _ _, _ => ⟨_, (Settles.const _).succ fun f => by rw [identifier]⟩
  | .setOf _ _ _, _ => ⟨_, (Settles.const _).succ fun f => by rw [identifier]⟩
  | .prefixed c n k t, h => by
    obtain ⟨i, hi⟩ := identifier_leafList mod t h
    by_cases hx : (isExplicit mod k || i.outer.isSome) = true
    · refine ⟨⟨some (.ofTag c n), i.inner, [], false⟩, (hi.bind ?_).succ fun f => by rw [identifier]⟩
      simp only [if_pos hx]
      exact .const _
    · refine ⟨⟨none, .ofTag c n, [], false⟩, (hi.bind ?_).succ fun f => by rw [identifier]⟩
      simp only [if_neg hx]
      exact .const _
  | .choice _ _, h => by rcases h with ⟨_, h⟩ | h <;> cases h
  | .sequence _ _, h => by rcases h with ⟨_, h⟩ | h <;> cases h
  | .set _ _, h => by rcases h with ⟨_, h⟩ | h <;> cases h
  | .objField _ _ _, h => by rcases h with ⟨_, h⟩ | h <;> cases h
  | .defined _ _ _, h => by rcases h with ⟨_, h⟩ | h <;> cases h

theorem typeAsString_leafList {tree : Tree} (mod : Module) (id : CId) : ∀ (t : AType) (name : Name), (∃ k, untag t = .leaf k) ∨ isList (untag t) = true →
    ∃ c, Settles (fun f => typeAsString tree mod f name id t) c
  | .leaf k, name, _ => by
    by_cases hk : k = .enumerated
    · subst hk; exact ⟨_, (Settles.const _).succ fun f => by rw [typeAsString]⟩
    · exact ⟨_, (Settles.const (.lib k id)).succ fun f => by rw [typeAsString]; exact hk⟩
  | .seqOf _ _ _, name, _ => ⟨_, (Settles.const _).succ fun f => by rw [typeAsString]⟩
  | .setOf _ _ _, name, _ => ⟨_, (Settles.const _).succ fun f => by rw [typeAsString]⟩
  | .prefixed c n k t, name, h => by
    obtain ⟨i, hi⟩ := identifier_leafList (tree := tree) mod (.prefixed c n k t) h
    obtain ⟨c, hc⟩ := typeAsString_leafList mod id t "" h
    exact ⟨c, (hi.bind hc).succ fun f => by rw [typeAsString]⟩
  | .choice _ _, _, h => by rcases h with ⟨_, h⟩ | h <;> cases h
  | .sequence _ _, _, h => by rcases h with ⟨_, h⟩ | h <;> cases h
  | .set _ _, _, h => by rcases h with ⟨_, h⟩ | h <;> cases h
  | .objField _ _ _, _, h => by rcases h with ⟨_, h⟩ | h <;> cases h
  | .defined _ _ _, _, h => by rcases h with ⟨_, h⟩ | h <;> cases h

/-- What occurs under the tags and references is a type the compiler knows. -/
theorem core_cases {tree : Tree} (hS : Supported tree) {mod wm : Module} {t u : AType} (ho : Occurs tree mod t) (hc : Core tree mod t wm u) :
    isStruct u = true ∨ (∃ k, u = .leaf k ∧ known k = true) ∨ isList u = true := by
  have ho' := occurs_core hc ho
  have hs := hS.tags _ _ ho'
  have hcore : isCore u = true := by
    induction hc with
    | here h => exact h
    | prefixed _ ih => exact ih (.prefixed ho) ho' hs
    | reference ht _ ih => exact ih (occurs_target ht) ho' hs
  cases u with
  | leaf k => cases hs with | leaf h => exact .inr (.inl ⟨_, rfl, h⟩)
  | choice => exact .inl rfl
  | sequence => exact .inl rfl
  | set => exact .inl rfl
  | seqOf => exact .inr (.inr rfl)
  | setOf => exact .inr (.inr rfl)
  | objField => cases hs
  | prefixed => cases hcore
  | defined => cases hcore

theorem typeAsString_defined {tree : Tree} (hS : Supported tree) {mod : Module} {m : Option Name} {ref : Name} {ps : List AType} (id : CId) (name : Name)
    (ho : Occurs tree mod (.defined m ref ps)) : ∃ c, Settles (fun f => typeAsString tree mod f name id (.defined m ref ps)) c := by
  obtain ⟨r, hr⟩ := resolveDefined_settles (hS.references _ _ _ _ ho) mod.name m rfl
  have hr' := hr
  obtain ⟨f, hf⟩ := hr'
  obtain ⟨_, hu, wm, hcore⟩ := resolveDefined_core hS ho (hf f (Nat.le_refl _))
  by_cases hg : r.type.isGenerated = true
  · refine ⟨.qualified (m.getD mod.name) ref, (hr.bind ?_).succ fun f => by rw [typeAsString]⟩
    simp only [if_pos hg]
    exact .const _
  · have hl : (∃ k, untag r.type = .leaf k) ∨ isList (untag r.type) = true := by
      rcases core_cases hS ho hcore with h | ⟨k, h, _⟩ | h
      · rw [isGenerated_untag] at hg; exact absurd h hg
      · exact .inl ⟨k, h⟩
      · exact .inr h
    obtain ⟨c, hc⟩ := typeAsString_leafList (tree := tree) mod id r.type ref hl
    refine ⟨c, (hr.bind ?_).succ fun f => by rw [typeAsString]⟩
    simp only [if_neg hg]
    exact hc

theorem enumImport_settles {tree : Tree} (hS : Supported tree) {mod : Module} {t : AType} (ho : Occurs tree mod t) :
    ∃ ds, Settles (fun f => enumImport tree f mod t) ds := by
  cases t with
  | defined m ref ps =>
    obtain ⟨r, hr⟩ := resolveDefined_settles (hS.references _ _ _ _ ho) mod.name m rfl
    by_cases he : r.type = .leaf .enumerated
    · refine ⟨_, (hr.bind (y := if r.module.name = mod.name then [] else [.usingEnum (ref ++ "Values") r.module.name]) ?_).congr fun f => by rw [enumImport]⟩
      simp only [he]
      exact .const _
    · refine ⟨[], (hr.bind ?_).congr fun f => by rw [enumImport]⟩
      refine (Settles.const []).congr fun f => ?_
      split
      · rename_i h; exact absurd h he
      · rfl
  | _ => exact ⟨[], (Settles.const []).congr fun f => by rw [enumImport]; intros; contradiction⟩

/-- The types `createAlias` is called for. -/
theorem createAlias_settles {tree : Tree} (hS : Supported tree) (hC : CompilableNames tree) (hL : Legal tree) {mod : Module} {t : AType} (ho : Occurs tree mod t)
    (ht : (∃ k, t = .leaf k) ∨ isList t = true ∨ ∃ m ref ps, t = .defined m ref ps) (name : Name) (ov : Option CId) :
    ∃ ds, Settles (fun f => createAlias tree f mod name ov t) ds := by
  obtain ⟨id, hid⟩ := overrideOr_settles hS hC hL ho ov
  obtain ⟨pre, hpre⟩ := enumImport_settles hS ho
  have hts : ∃ c, Settles (fun f => typeAsString tree mod f name id t) c := by
    rcases ht with ⟨k, rfl⟩ | h | ⟨m, ref, ps, rfl⟩
    · exact typeAsString_leafList mod id _ name (.inl ⟨k, rfl⟩)
    · refine typeAsString_leafList mod id _ name (.inr ?_)
      cases t <;> first | rfl | cases h
    · exact typeAsString_defined hS id name ho
  obtain ⟨c, hc⟩ := hts
  exact ⟨_, hid.bind (hpre.bind (hc.bind (.const _)))⟩

/-! ## Members -/

theorem componentLabels_settles {tree : Tree} (hS : Supported tree) (hC : CompilableNames tree) {mod : Module} (isSet : Bool) (i : Nat) (c : Comp)
    (ho : Occurs tree mod c.type) : ∃ ls, Settles (fun f => componentLabels tree f mod isSet i c) ls := by
  obtain ⟨ids, h⟩ := outerIds_settles hS hC ho
  unfold componentLabels
  by_cases h1 : isSet = true
  · simp only [if_pos h1]
    by_cases h2 : mod.tagging = .automatic
    · simp only [if_pos h2]; exact ⟨_, .const _⟩
    · simp only [if_neg h2]; exact ⟨_, h⟩
  · simp only [if_neg h1]
    by_cases h2 : (c.optional || c.default.isSome) = true
    · simp only [if_pos h2]; exact ⟨_, h⟩
    · simp only [if_neg h2]; exact ⟨_, .const _⟩

theorem alternativeLabels_settles {tree : Tree} (hS : Supported tree) (hC : CompilableNames tree) {mod : Module} (i : Nat) {t : AType}
    (ho : Occurs tree mod t) : ∃ ls, Settles (fun f => alternativeLabels tree f mod i t) ls := by
  obtain ⟨ids, h⟩ := outerIds_settles hS hC ho
  unfold alternativeLabels
  by_cases h2 : mod.tagging = .automatic
  · simp only [if_pos h2]; exact ⟨_, .const _⟩
  · simp only [if_neg h2]; exact ⟨_, h⟩

theorem createMembers_settles {tree : Tree} (hS : Supported tree) (hC : CompilableNames tree) (hL : Legal tree) {mod : Module} (isSet : Bool) (parent : Name) :
    ∀ (cs : List Comp) (i : Nat), (∀ c ∈ cs, Occurs tree mod c.type) → ∃ ms, Settles (fun f => createMembers tree f mod isSet parent i cs) ms
  | [], i, _ => by simp only [createMembers]; exact ⟨_, .const _⟩
  | c :: cs, i, ho => by
    obtain ⟨w, hw⟩ := componentFunction_settles hS hC hL c.name (ho c List.mem_cons_self)
    obtain ⟨ls, hl⟩ := componentLabels_settles hS hC isSet i c (ho c List.mem_cons_self)
    obtain ⟨ms, hms⟩ := createMembers_settles hS hC hL isSet parent cs (i + 1) fun c hc => ho c (List.mem_cons_of_mem _ hc)
    simp only [createMembers]
    exact ⟨_, hw.bind (hl.bind (hms.bind (.const _)))⟩

theorem createAlternatives_settles {tree : Tree} (hS : Supported tree) (hC : CompilableNames tree) (hL : Legal tree) {mod : Module} :
    ∀ (as : List Named) (i : Nat), (∀ a ∈ as, Occurs tree mod a.type) → ∃ ms, Settles (fun f => createAlternatives tree f mod i as) ms
  | [], i, _ => by simp only [createAlternatives]; exact ⟨_, .const _⟩
  | c :: cs, i, ho => by
    obtain ⟨w, hw⟩ := componentFunction_settles hS hC hL c.name (ho c List.mem_cons_self)
    obtain ⟨ls, hl⟩ := alternativeLabels_settles hS hC i (ho c List.mem_cons_self)
    obtain ⟨ms, hms⟩ := createAlternatives_settles hS hC hL cs (i + 1) fun c hc => ho c (List.mem_cons_of_mem _ hc)
    simp only [createAlternatives]
    exact ⟨_, hw.bind (hl.bind (hms.bind (.const _)))⟩

/-! ## Types -/

mutual
theorem createType_settles {tree : Tree} (hS : Supported tree) (hC : CompilableNames tree) (hL : Legal tree) {mod : Module} :
    ∀ (t : AType) (name : Name) (path : Option Name) (ov : Option CId), Occurs tree mod t →
    ∃ ds, Settles (fun f => createType tree f mod t name path ov) ds
  | .leaf k, name, path, ov, ho => by
    obtain ⟨ds, h⟩ := createAlias_settles hS hC hL ho (.inl ⟨k, rfl⟩) name ov
    simp only [createType]
    exact ⟨_, h.bind (.const _)⟩
  | .objField m c fs, name, path, ov, ho => by
    have := hS.tags _ _ ho
    cases this
  | .defined m ref ps, name, path, ov, ho => by
    simp only [createType]
    exact createAlias_settles hS hC hL ho (.inr (.inr ⟨m, ref, ps, rfl⟩)) name ov
  | .prefixed c n k t, name, path, ov, ho => by
    obtain ⟨id, h1⟩ := overrideOr_settles hS hC hL ho ov
    obtain ⟨ds, h2⟩ := createType_settles hS hC hL t name path (some id) (.prefixed ho)
    simp only [createType]
    exact ⟨_, h1.bind h2⟩
  | .seqOf n u s, name, path, ov, ho => by
    obtain ⟨ds, h1⟩ := createType_settles hS hC hL u (name ++ "Contained") (n.map makeTypeName) none (.seqOf ho)
    obtain ⟨es, h2⟩ := createAlias_settles hS hC hL ho (.inr (.inl rfl)) name ov
    simp only [createType]
    exact ⟨_, h1.bind (h2.bind (.const _))⟩
  | .setOf n u s, name, path, ov, ho => by
    obtain ⟨ds, h1⟩ := createType_settles hS hC hL u (name ++ "Contained") (n.map makeTypeName) none (.setOf ho)
    obtain ⟨es, h2⟩ := createAlias_settles hS hC hL ho (.inr (.inl rfl)) name ov
    simp only [createType]
    exact ⟨_, h1.bind (h2.bind (.const _))⟩
  | .set cs ext, name, path, ov, ho => by
    obtain ⟨inner, h1⟩ := createComponents_settles hS hC hL cs name 0 fun c hc => .set ho hc
    obtain ⟨ms, h2⟩ := createMembers_settles hS hC hL true name cs 0 fun c hc => .set ho hc
    obtain ⟨id, h3⟩ := overrideOr_settles hS hC hL ho ov
    simp only [createType]
    refine ⟨_, Settles.bind (x := ()) ?_ (h1.bind (h2.bind (h3.bind (.const _))))⟩
    simp only [checkValid, if_true]
    exact checkSet_settles hS hC hL ho
  | .sequence cs ext, name, path, ov, ho => by
    obtain ⟨inner, h1⟩ := createComponents_settles hS hC hL cs name 0 fun c hc => .sequence ho hc
    obtain ⟨ms, h2⟩ := createMembers_settles hS hC hL false name cs 0 fun c hc => .sequence ho hc
    obtain ⟨id, h3⟩ := overrideOr_settles hS hC hL ho ov
    simp only [createType]
    refine ⟨_, Settles.bind (x := ()) ?_ (h1.bind (h2.bind (h3.bind (.const _))))⟩
    simp only [checkValid, Bool.false_eq_true, if_false]
    exact checkSequence_settles hS hC hL ho
  | .choice as s, name, path, ov, ho => by
    obtain ⟨inner, h1⟩ := createChoices_settles hS hC hL as 0 fun c hc => .choice ho hc
    obtain ⟨ms, h2⟩ := createAlternatives_settles hS hC hL as 0 fun c hc => .choice ho hc
    obtain ⟨id, h3⟩ := overrideOr_settles hS hC hL ho ov
    simp only [createType]
    exact ⟨_, h3.bind (h1.bind (h2.bind (.const _)))⟩
theorem createComponents_settles {tree : Tree} (hS : Supported tree) (hC : CompilableNames tree) (hL : Legal tree) {mod : Module} :
    ∀ (cs : List Comp) (parent : Name) (i : Nat), (∀ c ∈ cs, Occurs tree mod c.type) →
    ∃ ds, Settles (fun f => createComponents tree f mod parent i cs) ds
  | [], parent, i, _ => by simp only [createComponents]; exact ⟨_, .const _⟩
  | .mk n t o d co st :: cs, parent, i, ho => by
    obtain ⟨ds, h1⟩ := createType_settles hS hC hL t (makeTypeName n parent) (some (makeTypeName n)) (autoOverride mod i) (ho _ List.mem_cons_self)
    obtain ⟨es, h2⟩ := createComponents_settles hS hC hL cs parent (i + 1) fun c hc => ho c (List.mem_cons_of_mem _ hc)
    simp only [createComponents]
    exact ⟨_, h1.bind (h2.bind (.const _))⟩
theorem createChoices_settles {tree : Tree} (hS : Supported tree) (hC : CompilableNames tree) (hL : Legal tree) {mod : Module} :
    ∀ (as : List Named) (i : Nat), (∀ a ∈ as, Occurs tree mod a.type) → ∃ ds, Settles (fun f => createChoices tree f mod i as) ds
  | [], i, _ => by simp only [createChoices]; exact ⟨_, .const _⟩
  | .mk n t :: as, i, ho => by
    obtain ⟨ds, h1⟩ := createType_settles hS hC hL t (makeTypeName n) (some (makeTypeName n)) (autoOverride mod i) (ho _ List.mem_cons_self)
    obtain ⟨es, h2⟩ := createChoices_settles hS hC hL as (i + 1) fun c hc => ho c (List.mem_cons_of_mem _ hc)
    simp only [createChoices]
    exact ⟨_, h1.bind (h2.bind (.const _))⟩
end

/-- The declarations of an assignment. -/
theorem createAssignment_settles {tree : Tree} (hS : Supported tree) (hC : CompilableNames tree) (hL : Legal tree) {mod : Module} (hm : mod ∈ tree.modules)
    {a : Assignment} (ha : a ∈ mod.assignments) : ∃ ds, Settles (fun f => createAssignment tree f mod a) ds := by
  unfold createAssignment
  cases hb : a.body with
  | type t => exact createType_settles hS hC hL t a.name (some a.name) none (.assigned hm ha hb)
  | value => exact ⟨_, .const _⟩
  | objectClass d => exact absurd hb (hC.classes _ hm _ ha d)
  | objectSet => exact ⟨_, .const _⟩

/-- From some count on, something is computed for all members of a list. -/
theorem settles_all {α β : Type} {g : α → Nat → Res β} : ∀ (l : List α), (∀ a ∈ l, ∃ x, Settles (g a) x) → ∃ f0, ∀ f ≥ f0, ∀ a ∈ l, ∃ x, g a f = .ok x
  | [], _ => ⟨0, fun _ _ _ h => by cases h⟩
  | a :: l, h => by
    obtain ⟨x, f1, h1⟩ := h a List.mem_cons_self
    obtain ⟨f2, h2⟩ := settles_all l fun a ha => h a (List.mem_cons_of_mem _ ha)
    refine ⟨max f1 f2, fun f hf b hb => ?_⟩
    rcases List.mem_cons.1 hb with rfl | hb
    · exact ⟨x, h1 f (by omega)⟩
    · exact h2 f (by omega) b hb

theorem threshold_all {α : Type} {P : α → Nat → Prop} : ∀ (l : List α), (∀ a ∈ l, ∃ f0, ∀ f ≥ f0, P a f) → ∃ f0, ∀ f ≥ f0, ∀ a ∈ l, P a f
  | [], _ => ⟨0, fun _ _ _ h => by cases h⟩
  | a :: l, h => by
    obtain ⟨f1, h1⟩ := h a List.mem_cons_self
    obtain ⟨f2, h2⟩ := threshold_all l fun a ha => h a (List.mem_cons_of_mem _ ha)
    refine ⟨max f1 f2, fun f hf b hb => ?_⟩
    rcases List.mem_cons.1 hb with rfl | hb
    · exact h1 f (by omega)
    · exact h2 f (by omega) b hb

/-- From some count on, the declarations of all assignments are written. -/
theorem emission_settles {tree : Tree} (hS : Supported tree) (hC : CompilableNames tree) (hL : Legal tree) :
    ∃ f0, ∀ f ≥ f0, ∀ mod ∈ tree.modules, ∀ a ∈ mod.assignments, ∃ ds, createAssignment tree f mod a = .ok ds :=
  threshold_all _ fun _ hm => settles_all _ fun _ ha => createAssignment_settles hS hC hL hm ha

end FastBer.Ast
