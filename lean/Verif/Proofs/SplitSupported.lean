import Verif.Proofs.StoredSupported
/-!
# Restrictions on sources and the splitting of modules
-/
namespace FastBer.Ast
open FastBer.Ast.Spec FastBer.Spec

/-! ## Names -/

theorem madeUp_last {n : Name} (h : MadeUp n) : ∃ cs d, n.toList = cs ++ [d] ∧ d.isDigit = true := by
  have key : ∀ (p : String) (k : Nat), ∃ cs d, (p ++ toString k).toList = cs ++ [d] ∧ d.isDigit = true := by
    intro p k
    have hne : (toString k).toList ≠ [] := by
      show (String.ofList (Nat.toDigits 10 k)).toList ≠ []
      rw [String.toList_ofList]
      exact Nat.toDigits_ne_nil
    refine ⟨p.toList ++ (toString k).toList.dropLast, (toString k).toList.getLast hne, ?_, digit_toString k _ (List.getLast_mem hne)⟩
    rw [String.toList_append, List.append_assoc, List.dropLast_concat_getLast]
  obtain ⟨k, h | h | h | h⟩ := h <;> rw [h] <;> exact key _ k

theorem madeUp_ne_suffix {n : Name} (h : MadeUp n) {s : String} {cs : List Char} {d : Char} (hs : s.toList = cs ++ [d]) (hd : d.isDigit = false) (p : String) :
    n ≠ p ++ s := by
  rintro rfl
  obtain ⟨cs', d', h1, h2⟩ := madeUp_last h
  rw [String.toList_append, hs, ← List.append_assoc] at h1
  have := (List.append_inj' h1 rfl).2
  cases this
  rw [hd] at h2
  cases h2

theorem madeUp_ne_empty {n : Name} (h : MadeUp n) : n ≠ "" := by
  rintro rfl
  obtain ⟨cs', d', h1, h2⟩ := madeUp_last h
  have := congrArg List.length h1
  simp at this

theorem SplitModule.name {m m' : Module} (h : SplitModule m m') : m'.name = m.name := by obtain ⟨-, j, rfl⟩ := h; rfl
theorem SplitModule.tagging {m m' : Module} (h : SplitModule m m') : m'.tagging = m.tagging := by obtain ⟨-, j, rfl⟩ := h; rfl

theorem SplitModule.assignment {m m' : Module} (h : SplitModule m m') {a' : Assignment} (ha : a' ∈ m'.assignments) :
    (∃ a ∈ m.assignments, a.name = a'.name) ∨ (∃ i ∈ m.imports, a'.name ∈ i.types) ∨ MadeUp a'.name := by
  obtain ⟨-, j, rfl⟩ := h
  obtain ⟨ns, h1, h2⟩ := (splitAssignments_splits m.name (splitImports m.assignments m.imports) j).names
  have h3 : a'.name ∈ (splitImports m.assignments m.imports).map (·.name) ++ ns := h2.mem_iff.1 (List.mem_map.2 ⟨a', ha, rfl⟩)
  rcases List.mem_append.1 h3 with h3 | h3
  · obtain ⟨c, hc, hcn⟩ := List.mem_map.1 h3
    rcases mem_splitImports hc with hc | ⟨i, hi, n, hn, rfl⟩
    · exact .inl ⟨c, hc, hcn⟩
    · exact .inr (.inl ⟨i, hi, hcn ▸ hn⟩)
  · obtain ⟨_, _, hm⟩ := h1.mem h3
    exact .inr (.inr hm.madeUp)

/-! ## The qualified source -/

theorem mem_qualifyComps {src : Tree} {own : Name} {cs : List Comp} {c : Comp} (h : c ∈ cs) :
    .mk c.name (qualifyType src own c.type) c.optional c.default c.componentsOf c.storage ∈ qualifyComps src own cs := by
  obtain ⟨i, hi⟩ := List.getElem?_of_mem h
  refine List.mem_of_getElem? (i := i) ?_
  rw [qualifyComps_get, hi]
  rfl

theorem mem_qualifyAlts {src : Tree} {own : Name} {as : List Named} {a : Named} (h : a ∈ as) :
    .mk a.name (qualifyType src own a.type) ∈ qualifyAlts src own as := by
  obtain ⟨i, hi⟩ := List.getElem?_of_mem h
  refine List.mem_of_getElem? (i := i) ?_
  rw [qualifyAlts_get, hi]
  rfl

theorem occurs_qualify {src : Tree} {m : Module} {t : AType} (h : Occurs src m t) : Occurs (qualify src) (qualifyModule src m) (qualifyType src m.name t) := by
  induction h with
  | assigned hm ha hb => exact .assigned (List.mem_map.2 ⟨_, hm, rfl⟩) (List.mem_map.2 ⟨_, ha, rfl⟩) (qualifyAssignment_type hb)
  | sequence _ hc ih => exact .sequence ih (mem_qualifyComps hc)
  | set _ hc ih => exact .set ih (mem_qualifyComps hc)
  | choice _ hc ih => exact .choice ih (mem_qualifyAlts hc)
  | seqOf _ ih => exact .seqOf ih
  | setOf _ ih => exact .setOf ih
  | prefixed _ ih => exact .prefixed ih

theorem field_qualify {src : Tree} {m : Module} {n : Name} {t : AType} (h : Spec.Field src m n t) :
    Spec.Field (qualify src) (qualifyModule src m) n (qualifyType src m.name t) := by
  cases h with
  | sequence ho hc => exact .sequence (occurs_qualify ho) (mem_qualifyComps hc)
  | set ho hc => exact .set (occurs_qualify ho) (mem_qualifyComps hc)
  | choice ho hc => exact .choice (occurs_qualify ho) (mem_qualifyAlts hc)

/-! ## Where types come from -/

/-- Every type written in the split modules corresponds to one of the source. -/
theorem SplitTree.sim {src S : Tree} (h : SplitTree src S) {m2 : Module} {t2 : AType} (ho : Occurs S m2 t2) :
    ∃ m1 t1, Occurs (qualify src) m1 t1 ∧ Sim (qualify src) S (SplitRel src) m1 t1 m2 t2 := by
  obtain ⟨hm2, m, hm, hn, ht, hs, hc⟩ := h.occurs ho
  cases hc with
  | made hso hp => exact ⟨_, _, occurs_qualify hso, h.nested hn ht _ _ hso hp⟩
  | name hso hp hx n htar => exact ⟨_, _, occurs_qualify hso, .right htar (h.nested hn ht _ _ hso hp)⟩
  | @alias i n hi hmem =>
    obtain ⟨⟨w, u⟩, htar⟩ := h.leads (h.plain.imports m hm i hi n hmem) m
    obtain ⟨w', u', h1, h2⟩ := h.path _ i.module m2 (some i.module) rfl htar
    exact ⟨w, u, occurs_target htar, .right h1 h2⟩

theorem SplitTree.stands {src S : Tree} (h : SplitTree src S) : Stands (qualify src) S (SplitRel src) := by
  intro m2 t2 ho hn
  obtain ⟨hm2, m, hm, hmn, ht, hs, hc⟩ := h.occurs ho
  cases hc with
  | name => exact absurd rfl (hn _ _ _)
  | alias => exact absurd rfl (hn _ _ _)
  | @made t k hso hp =>
    refine ⟨_, _, occurs_qualify hso, ?_, h.nested hmn ht _ _ hso hp⟩
    cases t with
    | defined => exact absurd rfl (hn _ _ _)
    | _ => nofun

theorem SplitTree.field {src S : Tree} (h : SplitTree src S) {m2 : Module} {n : Name} {t2 : AType} (hf : Spec.Field S m2 n t2) :
    ∃ m ∈ src.modules, ∃ t k, m2 ∈ S.modules ∧ SplitModule m m2 ∧ Spec.Field src m n t ∧ Occurs src m t ∧ Pushed S m2 (findNested m.name t k).2.1 ∧
      t2 = (findNested m.name t k).1 := by
  have comps : ∀ {cs' cs : List Comp} {own : Name} {k : Nat} {c' : Comp}, cs' = (findNestedComps own cs k).1 → c' ∈ cs' →
      ∃ c ∈ cs, ∃ j, c' = .mk c.name (findNested own c.type j).1 c.optional c.default c.componentsOf c.storage ∧
        ∀ p ∈ (findNested own c.type j).2.1, p ∈ (findNestedComps own cs k).2.1 := by
    rintro cs' cs own k c' rfl hc
    obtain ⟨i, hi⟩ := List.getElem?_of_mem hc
    obtain ⟨c, j, h1, h2, h3⟩ := findNestedComps_get _ _ _ hi
    exact ⟨c, List.mem_of_getElem? h1, j, h2, h3⟩
  cases hf with
  | @sequence cs' e c' ho hc =>
    obtain ⟨hm2, m, hm, hmn, ht, hs, hcm⟩ := h.occurs ho
    generalize hx : AType.sequence cs' e = t2 at hcm
    cases hcm with
    | name => cases hx
    | alias => cases hx
    | @made t k hso hp =>
      cases t with
      | sequence cs e' =>
        obtain ⟨hx, -⟩ := AType.sequence.injEq .. ▸ hx
        obtain ⟨c, h1, j, rfl, h2⟩ := comps hx hc
        exact ⟨m, hm, c.type, j, hm2, hs, .sequence hso h1, .sequence hso h1, fun p hp' => hp p (h2 p hp'), rfl⟩
      | _ => cases hx
  | @set cs' e c' ho hc =>
    obtain ⟨hm2, m, hm, hmn, ht, hs, hcm⟩ := h.occurs ho
    generalize hx : AType.set cs' e = t2 at hcm
    cases hcm with
    | name => cases hx
    | alias => cases hx
    | @made t k hso hp =>
      cases t with
      | set cs e' =>
        obtain ⟨hx, -⟩ := AType.set.injEq .. ▸ hx
        obtain ⟨c, h1, j, rfl, h2⟩ := comps hx hc
        exact ⟨m, hm, c.type, j, hm2, hs, .set hso h1, .set hso h1, fun p hp' => hp p (h2 p hp'), rfl⟩
      | _ => cases hx
  | @choice as' s a' ho ha =>
    obtain ⟨hm2, m, hm, hmn, ht, hs, hcm⟩ := h.occurs ho
    generalize hx : AType.choice as' s = t2 at hcm
    cases hcm with
    | name => cases hx
    | alias => cases hx
    | @made t k hso hp =>
      cases t with
      | choice as s' =>
        obtain ⟨rfl, -⟩ := AType.choice.injEq .. ▸ hx
        obtain ⟨i, hi⟩ := List.getElem?_of_mem ha
        obtain ⟨a, j, h1, rfl, h2⟩ := findNestedAlts_get _ _ _ hi
        have h1 := List.mem_of_getElem? h1
        exact ⟨m, hm, a.type, j, hm2, hs, .choice hso h1, .choice hso h1, fun p hp' => hp p (h2 p hp'), rfl⟩
      | _ => cases hx

/-! ## Shapes -/

theorem unnamedPrefix_nested (own : Name) (t : AType) (k : Nat) : (unnamedPrefix (findNested own t k).1).isSome = getsName t := by
  cases t with
  | leaf b => cases b <;> rfl
  | _ => rfl

theorem splitInner_shape (own : Name) (t : AType) (k : Nat) : (getsName t = false ∧ (splitInner own (findNested own t k)).1 = (findNested own t k).1 ∧
      (splitInner own (findNested own t k)).2.1 = (findNested own t k).2.1) ∨
    getsName t = true ∧ ∃ (p : String) (j : Nat), (splitInner own (findNested own t k)).1 = .defined (some own) (p ++ toString j) [] ∧ unnamedPrefix (findNested own t k).1 = some p ∧
      (p ++ toString j, (findNested own t k).1) ∈ (splitInner own (findNested own t k)).2.1 := by
  have := unnamedPrefix_nested own t k
  unfold splitInner
  cases hx : unnamedPrefix (findNested own t k).1 with
  | none =>
    rw [hx] at this
    refine .inl ⟨this.symm, ?_, ?_⟩ <;> · dsimp only; rw [hx]
  | some p =>
    rw [hx] at this
    refine .inr ⟨this.symm, p, (findNested own t k).2.2, ?_, rfl, ?_⟩
    · dsimp only; rw [hx]
    · dsimp only; rw [hx]; exact List.mem_append_right _ (List.mem_singleton.2 rfl)

theorem isList_inner (own : Name) : ∀ (t : AType) (k : Nat), isList (untag (findNested own t k).1) = true → isList (untag t) = true
  | .leaf b, k, h => by cases h
  | .objField q c fs, k, h => by cases h
  | .defined q ref ps, k, h => by cases h
  | .choice as s, k, h => by cases h
  | .sequence cs e, k, h => by cases h
  | .set cs e, k, h => by cases h
  | .seqOf n t s, k, h => rfl
  | .setOf n t s, k, h => rfl
  | .prefixed c n md t, k, h => by
    rw [untag]
    have h : isList (untag (splitInner own (findNested own t k)).1) = true := h
    rcases splitInner_shape own t k with ⟨_, h2, _⟩ | ⟨_, p, j, h2, _⟩
    · rw [h2] at h; exact isList_inner own t k h
    · rw [h2] at h; cases h

theorem defined_inner (own : Name) {m : Option Name} {ref : Name} {ps : List AType} : ∀ (t : AType) (k : Nat), untag (splitInner own (findNested own t k)).1 = .defined m ref ps →
    (∃ m ref ps, untag t = .defined m ref ps) ∨ getsName (untag t) = true := by
  intro t
  induction t using untag.induct with
  | case1 c n md t ih =>
    intro k h
    rcases splitInner_shape own (.prefixed c n md t) k with ⟨_, h2, _⟩ | ⟨h1, _⟩
    · rw [h2] at h
      exact ih k h
    · cases h1
  | case2 t hu =>
    intro k h
    have e : untag t = t := by
      unfold untag; split
      · exact absurd rfl (hu _ _ _ _)
      · rfl
    rw [e]
    rcases splitInner_shape own t k with ⟨h1, h2, _⟩ | ⟨h1, _⟩
    · left
      rw [h2] at h
      cases t with
      | defined => exact ⟨_, _, _, rfl⟩
      | prefixed => exact absurd rfl (hu _ _ _ _)
      | _ => cases h
    · exact .inr h1

/-! ## References -/

theorem SplitTree.lookup {src S : Tree} (h : SplitTree src S) {mod ref : Name} {t : AType} (hl : Spec.lookup src mod ref = some (.type t)) :
    ∃ m2 ∈ S.modules, m2.name = mod ∧ ∃ k, Spec.lookup S mod ref = some (.type (findNested mod t k).1) ∧ Pushed S m2 (findNested mod t k).2.1 := by
  obtain ⟨m, hm, rfl, a, ha, rfl, hb⟩ := target_of_lookup hl
  obtain ⟨m', hm', hnod, j, rfl⟩ := h.split m hm
  obtain ⟨k, ⟨a', h1, h2, h3⟩, h4⟩ := splitAssignments_mem m.name (splitImports m.assignments m.imports) j (List.mem_append_left _ ha) hb
  refine ⟨_, hm', rfl, k, ?_, fun p hp => ?_⟩
  · have := h.distinct.lookup hm' h1
    rw [h2, h3] at this
    exact this
  · obtain ⟨a', h5, h6, h7⟩ := h4 p hp
    exact h.distinct.target hm' rfl h5 h6 h7

theorem lookup_of_target {T : Tree} {m0 w : Module} {q : Option Name} {ref : Name} {u : AType} (h : target T m0 q ref = some (w, u)) :
    Spec.lookup T (q.getD m0.name) ref = some (.type u) := by
  unfold target at h
  unfold Spec.lookup
  obtain ⟨m, h1, h2⟩ := Option.bind_eq_some_iff.1 h
  obtain ⟨a, h3, h4⟩ := Option.bind_eq_some_iff.1 h2
  rw [h1, Option.bind_some, h3, Option.map_some]
  split at h4
  · rename_i t hb; cases h4; rw [hb]
  · cases h4

theorem not_refers {here : Name} {t : AType} {p : String} (h : unnamedPrefix t = some p) (m r : Name) : ¬ RefersTo here t m r := by
  intro hr
  cases hr <;> cases h

theorem SplitTree.refOk {src S : Tree} (h : SplitTree src S) {cur mod ref : Name} (hr : SourceRefOk src cur mod ref) : RefOk S cur mod ref := by
  induction hr with
  | @here mod ref t hl hn =>
    obtain ⟨m2, hm2, rfl, k, h1, h2⟩ := h.lookup hl
    cases t with
    | defined q r ps => exact absurd (.direct ..) (hn _ _)
    | prefixed c n md x =>
      rcases splitInner_shape m2.name x k with ⟨h3, h4, _⟩ | ⟨h3, p, j, h4, h5, h6⟩
      · refine .here h1 fun m r hx => ?_
        rw [show (findNested m2.name (.prefixed c n md x) k).1 = .prefixed c n md (splitInner m2.name (findNested m2.name x k)).1 from rfl, h4] at hx
        cases x with
        | defined => exact absurd (.tagged ..) (hn _ _)
        | _ => cases hx
      · rw [show (findNested m2.name (.prefixed c n md x) k).1 = .prefixed c n md (splitInner m2.name (findNested m2.name x k)).1 from rfl, h4] at h1
        refine .tagged h1 rfl ?_
        have := lookup_of_target (h2 _ h6)
        exact .here this (not_refers h5)
    | leaf | objField | choice | sequence | set | seqOf | setOf => exact .here h1 fun m r hx => by cases hx
  | alias hl _ ih =>
    obtain ⟨m2, hm2, rfl, k, h1, h2⟩ := h.lookup hl
    exact .alias h1 ih
  | tagged hl hc _ ih =>
    obtain ⟨m2, hm2, rfl, k, h1, h2⟩ := h.lookup hl
    exact .tagged h1 hc ih
  | @imported m i ref hm hi hr _ ih =>
    obtain ⟨m', hm', hnod, j, rfl⟩ := h.split m hm
    obtain ⟨k, ⟨a', h1, h2, h3⟩, -⟩ := splitAssignments_mem m.name (splitImports m.assignments m.imports) j (alias_mem hi hr) rfl
    have := h.distinct.lookup hm' h1
    rw [h2, h3] at this
    exact .alias this ih

/-! ## All restrictions -/

theorem SplitTree.supported {src S : Tree} (h : SplitTree src S) (hs : SupportedSource src) : Supported S where
  modules := h.modules
  assignments := h.distinct.assignments
  typeNames := fun m2 hm2 a ha => by
    obtain ⟨m, hm, hsp⟩ := h.only m2 hm2
    rcases hsp.assignment ha with ⟨b, hb, hn⟩ | ⟨i, hi, hn⟩ | hmu
    · exact hn ▸ hs.typeNames m hm b hb
    · exact hs.importedNames m hm i hi _ hn
    · exact ⟨madeUp_ne_empty hmu, fun p => madeUp_ne_suffix hmu (s := "Contained") (cs := "Containe".toList) (d := 'd') (by decide) (by decide) p⟩
  fieldNames := fun m2 n t hf => by
    obtain ⟨m, hm, t, k, _, _, h1, _⟩ := h.field hf
    exact hs.fieldNames _ _ _ h1
  listNames := fun m2 n t2 hf hl a ha => by
    obtain ⟨m, hm, t, k, _, hsp, h1, _, _, rfl⟩ := h.field hf
    have hl := isList_inner _ _ _ hl
    rcases hsp.assignment ha with ⟨b, hb, hn⟩ | ⟨i, hi, hn⟩ | hmu
    · exact hn ▸ hs.listNames _ _ _ h1 hl b hb
    · exact hs.listImports _ _ _ h1 hl i hi _ hn
    · refine ⟨fun he => hs.listMadeUp _ _ _ h1 hl (he ▸ hmu), madeUp_ne_suffix hmu (s := "_") (cs := []) (d := '_') (by decide) (by decide) _⟩
  tags := fun m2 t2 ho => by
    obtain ⟨m1, t1, h1, h2⟩ := h.sim ho
    exact h2.tagSafe h.corr (hs.tags _ _ h1)
  references := fun m2 q ref ps ho => by
    obtain ⟨hm2, m, hm, hn, ht, hsp, hc⟩ := h.occurs ho
    rw [hn]
    generalize hx : AType.defined q ref ps = t2 at hc
    cases hc with
    | alias hi hmem => cases hx; exact h.refOk (hs.imports m hm _ hi _ hmem)
    | @made t k hso hp =>
      cases t with
      | defined => cases hx; exact h.refOk (hs.references _ _ _ _ hso)
      | _ => cases hx
    | name ho hp hu n htar =>
      cases hx
      exact .here (lookup_of_target htar) (not_refers hu)
  twice := fun m2 c n k c' n' k' t2 ho m ref ps hu => by
    obtain ⟨hm2, m, hm, hn, ht, hsp, hc⟩ := h.occurs ho
    generalize hx : AType.prefixed c n k (.prefixed c' n' k' t2) = t3 at hc
    cases hc with
    | alias => cases hx
    | name => cases hx
    | @made t j hso hp =>
      cases t with
      | prefixed c0 n0 k0 t =>
        obtain ⟨rfl, rfl, rfl, hy⟩ := AType.prefixed.injEq .. ▸ hx
        rcases splitInner_shape m.name t j with ⟨_, h2, _⟩ | ⟨_, p, l, h2, _⟩
        · rw [h2] at hy
          cases t with
          | prefixed c0 n0 k0 t =>
            obtain ⟨rfl, rfl, rfl, hz⟩ := AType.prefixed.injEq .. ▸ hy
            rw [hz] at hu
            obtain ⟨g1, g2⟩ := hs.twice _ _ _ _ _ _ _ _ hso
            rcases defined_inner _ _ _ hu with ⟨a, b, d, h3⟩ | h3
            · exact g1 _ _ _ h3
            · rw [g2] at h3; cases h3
          | _ => cases hy
        · rw [h2] at hy; cases hy
      | _ => cases hx
  foreignLists := fun m2 q ref ps wm u ho hcore hl => by
    obtain ⟨hm2, m, hm, hn, ht, hsp, hc⟩ := h.occurs ho
    generalize hx : AType.defined q ref ps = t2 at hc
    cases hc with
    | @alias i x hi hmem =>
      cases hx
      have hsim : Sim (qualify src) S (SplitRel src) m (qualifyType src m.name (.defined (some i.module) ref [])) m2 (.defined (some i.module) ref []) :=
        .defined ⟨rfl, rfl, h.leads (h.plain.imports m hm i hi _ hmem) _⟩
      obtain ⟨wm', u', h4, h5⟩ := hsim.symm.core h.corr.symm hcore
      have := hs.importedLists m hm i hi _ hmem wm' u' h4
      rw [(h5.isStruct (core_isCore hcore) (core_isCore h4)).2, this] at hl
      cases hl
    | @made t k hso hp =>
      cases t with
      | defined =>
        cases hx
        have hsim : Sim (qualify src) S (SplitRel src) m (qualifyType src m.name (.defined q ref ps)) m2 (.defined q ref ps) :=
          .defined ⟨by rw [hn], rfl, h.leads (h.plain.references m q ref ps hso) _⟩
        obtain ⟨wm', u', h4, h5⟩ := hsim.symm.core h.corr.symm hcore
        rw [hn]
        exact hs.foreignLists _ _ _ _ _ _ hso h4 ((h5.isStruct (core_isCore hcore) (core_isCore h4)).2 ▸ hl)
      | _ => cases hx
    | name =>
      cases hx
      exact hn.symm
  elements := fun m2 n t s ho hl => by
    obtain ⟨m1, t1, h1, hn, h2⟩ := h.stands _ _ ho (by nofun)
    cases h2 with
    | left => exact absurd rfl (hn _ _ _)
    | seqOf n n' s s' h2 => exact hs.elements _ _ _ _ h1 (h2.symm.taggedStruct h.corr.symm hl.taggedStruct)
  setElements := fun m2 n t s ho hl => by
    obtain ⟨m1, t1, h1, hn, h2⟩ := h.stands _ _ ho (by nofun)
    cases h2 with
    | left => exact absurd rfl (hn _ _ _)
    | setOf n n' s s' h2 => exact hs.setElements _ _ _ _ h1 (h2.symm.taggedStruct h.corr.symm hl.taggedStruct)
  autoUntagged := fun m2 n t2 hf ha => by
    obtain ⟨m, hm, t, k, _, hsp, h1, h2, h3, rfl⟩ := h.field hf
    rw [hasTag_findNested, ← hasTag_qualify src m.name]
    exact hs.autoUntagged _ _ _ (field_qualify h1) (hsp.tagging ▸ ha)
  autoSingle := fun m2 n t2 ts hf ha ho => by
    obtain ⟨m, hm, t, k, _, hsp, h1, h2, h3, rfl⟩ := h.field hf
    exact hs.autoSingle _ _ _ ts (field_qualify h1) (hsp.tagging ▸ ha) (((h.nested hsp.name hsp.tagging _ _ h2 h3).ownTags_iff h.corr ts).2 ho)
  autoReference := fun m2 n q ref ps wm u hf ha hc => by
    obtain ⟨m, hm, t, k, _, hsp, h1, h2, h3, hx⟩ := h.field hf
    cases t with
    | defined =>
      cases hx
      obtain ⟨wm', u', h4, h5⟩ := (h.nested hsp.name hsp.tagging _ k h2 h3).symm.core h.corr.symm hc
      rw [(h5.isStruct (core_isCore hc) (core_isCore h4)).1]
      exact hs.autoReference _ _ _ _ _ _ _ (field_qualify h1) (hsp.tagging ▸ ha) h4
    | _ => cases hx
  autoMandatory := fun m2 cs e c ho ha hc => by
    obtain ⟨m1, t1, h1, hn, h2⟩ := h.stands _ _ ho (by nofun)
    cases h2 with
    | left => exact absurd rfl (hn _ _ _)
    | sequence e ht hlen h3 h4 =>
      obtain ⟨i, hi⟩ := List.getElem?_of_mem hc
      obtain ⟨c', hc'⟩ := get_other hlen.symm hi
      obtain ⟨-, -, h5, h6⟩ := h3 i _ _ hc' hi
      rw [← h5, ← h6]
      exact hs.autoMandatory _ _ _ _ h1 (ht ▸ ha) (List.mem_of_getElem? hc')

/-- A type of the output whose tags are lost is a tagged structure in the source. -/
theorem lost_source {src S out : Tree} (hS : SplitTree src S) (hO : StoredTree S out) {m1 m2 m3 : Module} {t1 t2 t3 : AType}
    (h1 : Sim (qualify src) S (SplitRel src) m1 t1 m2 t2) (h2 : Sim S out SameRef m2 t2 m3 t3) (hl : Lost out m3 t3) : TaggedStruct (qualify src) m1 t1 :=
  h1.symm.taggedStruct hS.corr.symm (h2.symm.taggedStruct hO.corr.symm hl.taggedStruct)

end FastBer.Ast
