import Verif.Proofs.SimSupported
/-!
# Restrictions on schemas and the ordering of assignments
-/
namespace FastBer.Ast
open FastBer.Ast.Spec FastBer.Spec

theorem forget_sequence {t : AType} {cs : List Comp} {e : Bool} (h : forget t = forget (.sequence cs e)) : ∃ cs', t = .sequence cs' e ∧ forgetComps cs' = forgetComps cs := by
  cases t with
  | sequence cs' e' =>
    obtain ⟨h1, h2⟩ := AType.sequence.injEq .. ▸ h
    subst h2
    exact ⟨cs', rfl, h1⟩
  | _ => cases h

theorem forget_set {t : AType} {cs : List Comp} {e : Bool} (h : forget t = forget (.set cs e)) : ∃ cs', t = .set cs' e ∧ forgetComps cs' = forgetComps cs := by
  cases t with
  | set cs' e' =>
    obtain ⟨h1, h2⟩ := AType.set.injEq .. ▸ h
    subst h2
    exact ⟨cs', rfl, h1⟩
  | _ => cases h

theorem forget_choice {t : AType} {as : List Named} {s : Storage} (h : forget t = forget (.choice as s)) : ∃ as' s', t = .choice as' s' ∧ forgetAlts as' = forgetAlts as := by
  cases t with
  | choice as' s' => exact ⟨as', s', rfl, (AType.choice.injEq .. ▸ h).1⟩
  | _ => cases h

theorem forget_seqOf {t u : AType} {n : Option Name} {s : Storage} (h : forget t = forget (.seqOf n u s)) : ∃ u' s', t = .seqOf n u' s' ∧ forget u' = forget u := by
  cases t with
  | seqOf n' u' s' =>
    obtain ⟨h1, h2, -⟩ := AType.seqOf.injEq .. ▸ h
    subst h1
    exact ⟨u', s', rfl, h2⟩
  | _ => cases h

theorem forget_setOf {t u : AType} {n : Option Name} {s : Storage} (h : forget t = forget (.setOf n u s)) : ∃ u' s', t = .setOf n u' s' ∧ forget u' = forget u := by
  cases t with
  | setOf n' u' s' =>
    obtain ⟨h1, h2, -⟩ := AType.setOf.injEq .. ▸ h
    subst h1
    exact ⟨u', s', rfl, h2⟩
  | _ => cases h

theorem forget_prefixed {t u : AType} {c : Cls} {n : Nat} {k : TagMode} (h : forget t = forget (.prefixed c n k u)) :
    ∃ u', t = .prefixed c n k u' ∧ forget u' = forget u := by
  cases t with
  | prefixed c' n' k' u' =>
    obtain ⟨h1, h2, h3, h4⟩ := AType.prefixed.injEq .. ▸ h
    subst h1; subst h2; subst h3
    exact ⟨u', rfl, h4⟩
  | _ => cases h

theorem forget_defined {t : AType} {m : Option Name} {ref : Name} {ps : List AType} (h : forget t = forget (.defined m ref ps)) : t = .defined m ref ps := by
  cases t <;> cases h; rfl

theorem forgetComps_other {cs cs' : List Comp} (h : forgetComps cs' = forgetComps cs) {c : Comp} (hc : c ∈ cs) :
    ∃ c' ∈ cs', c'.name = c.name ∧ forget c'.type = forget c.type ∧ c'.optional = c.optional ∧ c'.default = c.default := by
  obtain ⟨i, hi⟩ := List.getElem?_of_mem hc
  have h1 := forgetComps_get cs i
  have h2 := forgetComps_get cs' i
  rw [h, h1, hi] at h2
  cases h3 : cs'[i]? with
  | none => rw [h3] at h2; cases h2
  | some c' =>
    rw [h3] at h2
    have := Comp.mk.injEq .. ▸ Option.some.inj h2
    exact ⟨c', List.mem_of_getElem? h3, this.1.symm, this.2.1.symm, this.2.2.1.symm, this.2.2.2.1.symm⟩

theorem forgetAlts_other {as as' : List Named} (h : forgetAlts as' = forgetAlts as) {a : Named} (ha : a ∈ as) :
    ∃ a' ∈ as', a'.name = a.name ∧ forget a'.type = forget a.type := by
  obtain ⟨i, hi⟩ := List.getElem?_of_mem ha
  have h1 := forgetAlts_get as i
  have h2 := forgetAlts_get as' i
  rw [h, h1, hi] at h2
  cases h3 : as'[i]? with
  | none => rw [h3] at h2; cases h2
  | some a' =>
    rw [h3] at h2
    have := Named.mk.injEq .. ▸ Option.some.inj h2
    exact ⟨a', List.mem_of_getElem? h3, this.1.symm, this.2.symm⟩

theorem forget_untag {t u : AType} (h : forget t = forget u) : forget (untag t) = forget (untag u) := by
  induction u using untag.induct generalizing t with
  | case1 c n k u ih =>
    obtain ⟨u', rfl, h'⟩ := forget_prefixed h
    rw [untag, untag]
    exact ih h'
  | case2 u hu =>
    have ht : ∀ c n k v, t ≠ .prefixed c n k v := by
      rintro c n k v rfl
      obtain ⟨u', h1, -⟩ := forget_prefixed h.symm
      exact hu _ _ _ _ h1
    rw [show untag u = u from by unfold untag; split; exact absurd rfl (hu _ _ _ _); rfl,
      show untag t = t from by unfold untag; split; exact absurd rfl (ht _ _ _ _); rfl]
    exact h

theorem forget_isList {t u : AType} (h : forget t = forget u) : isList t = isList u := by
  have e : ∀ t, isList (forget t) = isList t := fun t => by cases t <;> rfl
  rw [← e t, h, e u]

theorem forget_hasTag {t u : AType} (h : forget t = forget u) : hasTag t = hasTag u := by
  rw [← hasTag_forget t, h, hasTag_forget u]

theorem StoredModule.name {m m' : Module} (h : StoredModule m m') : m'.name = m.name := by obtain ⟨as, rfl, -⟩ := h; rfl
theorem StoredModule.tagging {m m' : Module} (h : StoredModule m m') : m'.tagging = m.tagging := by obtain ⟨as, rfl, -⟩ := h; rfl

theorem StoredModule.assignment {m m' : Module} (h : StoredModule m m') {a' : Assignment} (ha : a' ∈ m'.assignments) :
    ∃ a ∈ m.assignments, a.name = a'.name ∧ ∀ t', a'.body = .type t' → ∃ t, a.body = .type t ∧ forget t = forget t' := by
  obtain ⟨as, rfl, hp⟩ := h
  obtain ⟨a, ha', hf⟩ := List.mem_map.1 (hp.mem_iff.1 (List.mem_map.2 ⟨a', ha, rfl⟩))
  refine ⟨a, ha', by rw [← forgetA_name, hf, forgetA_name], fun t' hb => ?_⟩
  obtain ⟨-, t, h1, h2⟩ := forgetA_type hf.symm hb
  exact ⟨t, h1, h2.symm⟩

theorem StoredTree.occurs {S out : Tree} (h : StoredTree S out) {m3 : Module} {t3 : AType} (ho : Occurs out m3 t3) :
    ∃ m2 ∈ S.modules, ∃ t2, Occurs S m2 t2 ∧ forget t2 = forget t3 ∧ StoredModule m2 m3 := by
  induction ho with
  | assigned hm ha hb =>
    obtain ⟨m2, hm2, hs⟩ := h.only _ hm
    obtain ⟨a, ha', -, hx⟩ := hs.assignment ha
    obtain ⟨t, h1, h2⟩ := hx _ hb
    exact ⟨m2, hm2, t, .assigned hm2 ha' h1, h2, hs⟩
  | sequence _ hc ih =>
    obtain ⟨m2, hm, t2, h1, h2, h3⟩ := ih
    obtain ⟨cs, rfl, h4⟩ := forget_sequence h2
    obtain ⟨c, h5, -, h6, -⟩ := forgetComps_other h4 hc
    exact ⟨m2, hm, _, .sequence h1 h5, h6, h3⟩
  | set _ hc ih =>
    obtain ⟨m2, hm, t2, h1, h2, h3⟩ := ih
    obtain ⟨cs, rfl, h4⟩ := forget_set h2
    obtain ⟨c, h5, -, h6, -⟩ := forgetComps_other h4 hc
    exact ⟨m2, hm, _, .set h1 h5, h6, h3⟩
  | choice _ hc ih =>
    obtain ⟨m2, hm, t2, h1, h2, h3⟩ := ih
    obtain ⟨cs, s, rfl, h4⟩ := forget_choice h2
    obtain ⟨c, h5, -, h6⟩ := forgetAlts_other h4 hc
    exact ⟨m2, hm, _, .choice h1 h5, h6, h3⟩
  | seqOf _ ih =>
    obtain ⟨m2, hm, t2, h1, h2, h3⟩ := ih
    obtain ⟨u, s, rfl, h4⟩ := forget_seqOf h2
    exact ⟨m2, hm, _, .seqOf h1, h4, h3⟩
  | setOf _ ih =>
    obtain ⟨m2, hm, t2, h1, h2, h3⟩ := ih
    obtain ⟨u, s, rfl, h4⟩ := forget_setOf h2
    exact ⟨m2, hm, _, .setOf h1, h4, h3⟩
  | prefixed _ ih =>
    obtain ⟨m2, hm, t2, h1, h2, h3⟩ := ih
    obtain ⟨u, rfl, h4⟩ := forget_prefixed h2
    exact ⟨m2, hm, _, .prefixed h1, h4, h3⟩

theorem StoredTree.field {S out : Tree} (h : StoredTree S out) {m3 : Module} {n : Name} {t3 : AType} (ho : Spec.Field out m3 n t3) :
    ∃ m2 ∈ S.modules, ∃ t2, Spec.Field S m2 n t2 ∧ forget t2 = forget t3 ∧ StoredModule m2 m3 := by
  cases ho with
  | sequence ho hc =>
    obtain ⟨m2, hm, t2, h1, h2, h3⟩ := h.occurs ho
    obtain ⟨cs, rfl, h4⟩ := forget_sequence h2
    obtain ⟨c, h5, h7, h6, -⟩ := forgetComps_other h4 hc
    exact ⟨m2, hm, _, h7 ▸ .sequence h1 h5, h6, h3⟩
  | set ho hc =>
    obtain ⟨m2, hm, t2, h1, h2, h3⟩ := h.occurs ho
    obtain ⟨cs, rfl, h4⟩ := forget_set h2
    obtain ⟨c, h5, h7, h6, -⟩ := forgetComps_other h4 hc
    exact ⟨m2, hm, _, h7 ▸ .set h1 h5, h6, h3⟩
  | choice ho hc =>
    obtain ⟨m2, hm, t2, h1, h2, h3⟩ := h.occurs ho
    obtain ⟨cs, s, rfl, h4⟩ := forget_choice h2
    obtain ⟨c, h5, h7, h6⟩ := forgetAlts_other h4 hc
    exact ⟨m2, hm, _, h7 ▸ .choice h1 h5, h6, h3⟩

theorem StoredTree.stands {S out : Tree} (h : StoredTree S out) : Stands S out SameRef := by
  intro m3 t3 ho hn
  obtain ⟨m2, hm, t2, h1, h2, h3⟩ := h.occurs ho
  refine ⟨m2, t2, h1, ?_, forget_sim h3.name.symm h3.tagging.symm _ _ h2⟩
  rintro q ref ps rfl
  exact hn _ _ _ (forget_defined h2.symm)

theorem target_of_lookup {T : Tree} {mod ref : Name} {t : AType} (h : lookup T mod ref = some (.type t)) :
    ∃ m ∈ T.modules, m.name = mod ∧ ∃ a ∈ m.assignments, a.name = ref ∧ a.body = .type t := by
  unfold lookup at h
  obtain ⟨m, h1, h2⟩ := Option.bind_eq_some_iff.1 h
  obtain ⟨a, h3, h4⟩ := Option.map_eq_some_iff.1 h2
  exact ⟨m, List.mem_of_find?_eq_some h1, by simpa using List.find?_some h1, a, List.mem_of_find?_eq_some h3, by simpa using List.find?_some h3, h4⟩

theorem Distinct.lookup {T : Tree} (h : Distinct T) {m : Module} (hm : m ∈ T.modules) {a : Assignment} (ha : a ∈ m.assignments) :
    Spec.lookup T m.name a.name = some a.body := by
  unfold Spec.lookup
  rw [find_key (key := Module.name) h.modules hm rfl]
  show ((m.assignments.find? (·.name == a.name)).map (·.body)) = _
  rw [find_key (key := Assignment.name) (h.assignments m hm) ha rfl]
  rfl

theorem StoredTree.lookup {S out : Tree} (h : StoredTree S out) {mod ref : Name} {t : AType} (hl : lookup S mod ref = some (.type t)) :
    ∃ t', Spec.lookup out mod ref = some (.type t') ∧ forget t' = forget t := by
  obtain ⟨m, hm, rfl, a, ha, rfl, hb⟩ := target_of_lookup hl
  obtain ⟨m', hm', as, rfl, hp⟩ := h.stored m hm
  obtain ⟨a', ha', hf⟩ := List.mem_map.1 (hp.mem_iff.2 (List.mem_map.2 ⟨a, ha, rfl⟩))
  obtain ⟨hn, t', h1, h2⟩ := forgetA_type hf.symm hb
  refine ⟨t', ?_, h2.symm⟩
  have := h.distinct'.lookup hm' ha'
  rw [h1] at this
  rw [hn]
  exact this

theorem StoredTree.refOk {S out : Tree} (h : StoredTree S out) {cur mod ref : Name} (hr : RefOk S cur mod ref) : RefOk out cur mod ref := by
  induction hr with
  | here hl hn =>
    obtain ⟨t', h1, h2⟩ := h.lookup hl
    refine .here h1 fun m r hx => ?_
    cases hx with
    | direct =>
      have := forget_defined h2.symm
      subst this
      exact hn _ _ (.direct ..)
    | tagged =>
      obtain ⟨u, rfl, h3⟩ := forget_prefixed h2.symm
      have := forget_defined h3
      subst this
      exact hn _ _ (.tagged ..)
  | alias hl _ ih =>
    obtain ⟨t', h1, h2⟩ := h.lookup hl
    rw [forget_defined h2] at h1
    exact .alias h1 ih
  | tagged hl hc _ ih =>
    obtain ⟨t', h1, h2⟩ := h.lookup hl
    obtain ⟨u, rfl, h3⟩ := forget_prefixed h2
    rw [forget_defined h3] at h1
    exact .tagged h1 hc ih

theorem StoredTree.back {S out : Tree} (h : StoredTree S out) {m2 m3 w3 : Module} (hn : m2.name = m3.name) {q : Option Name} {ref : Name} {u3 : AType}
    (ht : target out m3 q ref = some (w3, u3)) : ∃ w2 u2, target S m2 q ref = some (w2, u2) ∧ forget u2 = forget u3 ∧ StoredModule w2 w3 := by
  obtain ⟨h1, h2, a, h3, rfl, h4⟩ := target_mem ht
  obtain ⟨w2, hw, hs⟩ := h.only w3 h1
  obtain ⟨a', ha', hn', hx⟩ := hs.assignment h3
  obtain ⟨t, h5, h6⟩ := hx _ h4
  exact ⟨w2, t, h.distinct.target hw (by rw [hn, ← h2, hs.name]) ha' hn' h5, h6, hs⟩

theorem StoredTree.lost {S out : Tree} (h : StoredTree S out) {m3 : Module} {t3 : AType} (hl : Lost out m3 t3) : ∀ {m2 : Module} {t2 : AType},
    forget t2 = forget t3 → StoredModule m2 m3 → Lost S m2 t2 := by
  induction hl with
  | tagged hu hc hs =>
    intro m2 t2 hf hm
    obtain ⟨u, rfl, h1⟩ := forget_prefixed hf
    obtain ⟨wm', u', h2, h3⟩ := (forget_sim (T1 := S) (T2 := out) hm.name.symm hm.tagging.symm _ _ h1).symm.core h.corr.symm hc
    exact .tagged (forget_defined (hu ▸ forget_untag h1)) h2 ((h3.isStruct (core_isCore hc) (core_isCore h2)).1 ▸ hs)
  | reference ht _ ih =>
    intro m2 t2 hf hm
    cases forget_defined hf
    obtain ⟨w2, u2, h1, h2, h3⟩ := h.back hm.name.symm ht
    exact .reference h1 (ih h2 h3)

theorem StoredTree.supported {S out : Tree} (h : StoredTree S out) (hs : Supported S) : Supported out where
  modules := h.modules
  assignments := h.distinct'.assignments
  typeNames := fun m3 hm a ha => by
    obtain ⟨m2, hm2, hst⟩ := h.only m3 hm
    obtain ⟨a', ha', hn, -⟩ := hst.assignment ha
    exact hn ▸ hs.typeNames m2 hm2 a' ha'
  fieldNames := fun m3 n t hf => by
    obtain ⟨m2, hm, t2, h1, h2, h3⟩ := h.field hf
    exact hs.fieldNames _ _ _ h1
  listNames := fun m3 n t hf hl a ha => by
    obtain ⟨m2, hm, t2, h1, h2, h3⟩ := h.field hf
    obtain ⟨a', ha', hn, -⟩ := h3.assignment ha
    exact hn ▸ hs.listNames _ _ _ h1 (forget_isList (forget_untag h2) ▸ hl) a' ha'
  tags := fun m3 t ho => by
    obtain ⟨m2, hm, t2, h1, h2, h3⟩ := h.occurs ho
    exact (forget_sim h3.name.symm h3.tagging.symm _ _ h2).tagSafe h.corr (hs.tags _ _ h1)
  references := fun m3 m ref ps ho => by
    obtain ⟨m2, hm, t2, h1, h2, h3⟩ := h.occurs ho
    cases forget_defined h2
    rw [h3.name]
    exact h.refOk (hs.references _ _ _ _ h1)
  twice := fun m3 c n k c' n' k' t ho m ref ps hu => by
    obtain ⟨m2, hm, t2, h1, h2, h3⟩ := h.occurs ho
    obtain ⟨u, rfl, h4⟩ := forget_prefixed h2
    obtain ⟨u', rfl, h5⟩ := forget_prefixed h4
    exact hs.twice _ _ _ _ _ _ _ _ h1 m ref ps (forget_defined (hu ▸ forget_untag h5))
  foreignLists := fun m3 m ref ps wm u ho hc hl => by
    obtain ⟨m2, hm, t2, h1, h2, h3⟩ := h.occurs ho
    cases forget_defined h2
    obtain ⟨wm', u', h4, h5⟩ := (forget_sim (T1 := S) (T2 := out) h3.name.symm h3.tagging.symm _ _ h2).symm.core h.corr.symm hc
    rw [h3.name]
    exact hs.foreignLists _ _ _ _ _ _ h1 h4 ((h5.isStruct (core_isCore hc) (core_isCore h4)).2 ▸ hl)
  elements := fun m3 n t s ho hl => by
    obtain ⟨m2, hm, t2, h1, h2, h3⟩ := h.occurs ho
    obtain ⟨u, s', rfl, h4⟩ := forget_seqOf h2
    exact hs.elements _ _ _ _ h1 (h.lost hl h4 h3)
  setElements := fun m3 n t s ho hl => by
    obtain ⟨m2, hm, t2, h1, h2, h3⟩ := h.occurs ho
    obtain ⟨u, s', rfl, h4⟩ := forget_setOf h2
    exact hs.setElements _ _ _ _ h1 (h.lost hl h4 h3)
  autoUntagged := fun m3 n t hf ha => by
    obtain ⟨m2, hm, t2, h1, h2, h3⟩ := h.field hf
    rw [← forget_hasTag h2]
    exact hs.autoUntagged _ _ _ h1 (h3.tagging ▸ ha)
  autoSingle := fun m3 n t ts hf ha ho => by
    obtain ⟨m2, hm, t2, h1, h2, h3⟩ := h.field hf
    exact hs.autoSingle _ _ _ ts h1 (h3.tagging ▸ ha) (((forget_sim h3.name.symm h3.tagging.symm _ _ h2).ownTags_iff h.corr ts).2 ho)
  autoReference := fun m3 n m ref ps wm u hf ha hc => by
    obtain ⟨m2, hm, t2, h1, h2, h3⟩ := h.field hf
    cases forget_defined h2
    obtain ⟨wm', u', h4, h5⟩ := (forget_sim (T1 := S) (T2 := out) h3.name.symm h3.tagging.symm _ _ h2).symm.core h.corr.symm hc
    rw [(h5.isStruct (core_isCore hc) (core_isCore h4)).1]
    exact hs.autoReference _ _ _ _ _ _ _ h1 (h3.tagging ▸ ha) h4
  autoMandatory := fun m3 cs e c ho ha hc => by
    obtain ⟨m2, hm, t2, h1, h2, h3⟩ := h.occurs ho
    obtain ⟨cs', rfl, h4⟩ := forget_sequence h2
    obtain ⟨c', h5, -, -, h6, h7⟩ := forgetComps_other h4 hc
    rw [← h6, ← h7]
    exact hs.autoMandatory _ _ _ _ h1 (h3.tagging ▸ ha) h5

end FastBer.Ast
