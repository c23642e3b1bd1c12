import Verif.Proofs.CompilesAll
import Verif.Proofs.StoredSupported
/-!
# Names made up for C++ do not depend on how things are stored
-/
namespace FastBer.Ast
open FastBer.Ast.Spec FastBer.Spec

theorem StoredTree.target {S out : Tree} (h : StoredTree S out) {m2 m3 w2 : Module} (hn : m3.name = m2.name) {q : Option Name} {ref : Name} {u : AType}
    (ht : Spec.target S m2 q ref = some (w2, u)) : ∃ w3 u3, Spec.target out m3 q ref = some (w3, u3) ∧ w3.name = w2.name ∧ forget u3 = forget u := by
  obtain ⟨h1, h2, a, h3, rfl, h4⟩ := target_mem ht
  obtain ⟨w', hw', as, rfl, hp⟩ := h.stored w2 h1
  obtain ⟨a', ha', hf⟩ := List.mem_map.1 (hp.mem_iff.2 (List.mem_map.2 ⟨a, h3, rfl⟩) : forgetA a ∈ as.map forgetA)
  obtain ⟨h5, t', h6, h7⟩ := forgetA_type hf.symm h4
  exact ⟨_, t', h.distinct'.target hw' (by rw [hn]; exact h2) ha' h5.symm h6, rfl, h7.symm⟩

theorem StoredTree.untarget {S out : Tree} (h : StoredTree S out) {m2 m3 w3 : Module} (hn : m3.name = m2.name) {q : Option Name} {ref : Name} {u : AType}
    (ht : Spec.target out m3 q ref = some (w3, u)) : ∃ w2 u2, Spec.target S m2 q ref = some (w2, u2) ∧ w3.name = w2.name ∧ forget u2 = forget u := by
  obtain ⟨h1, h2, a, h3, rfl, h4⟩ := target_mem ht
  obtain ⟨w', hw', as, rfl, hp⟩ := h.only w3 h1
  obtain ⟨a', ha', hf⟩ := List.mem_map.1 (hp.mem_iff.1 (List.mem_map.2 ⟨a, h3, rfl⟩) : forgetA a ∈ w'.assignments.map forgetA)
  obtain ⟨h5, t', h6, h7⟩ := forgetA_type hf.symm h4
  exact ⟨_, t', h.distinct.target hw' (by rw [← hn]; exact h2) ha' h5.symm h6, rfl, h7.symm⟩

theorem forget_leaf {t : AType} {k : Builtin} (h : forget t = .leaf k) : t = .leaf k := by
  cases t <;> cases h; rfl

/-- The names declared for a reference. -/
theorem declares_reference {S out : Tree} (h : StoredTree S out) {m2 m3 : Module} (hn : m3.name = m2.name) (q : Option Name) (ref : Name) (ps : List AType) (n : Name) :
    declares out m3 (.defined q ref ps) n = declares S m2 (.defined q ref ps) n := by
  simp only [declares]
  cases h1 : Spec.target S m2 q ref with
  | none =>
    cases h2 : Spec.target out m3 q ref with
    | none => rfl
    | some p =>
      obtain ⟨w2, u2, h3, -⟩ := h.untarget hn h2
      rw [h1] at h3; cases h3
  | some p =>
    obtain ⟨w2, u2⟩ := p
    obtain ⟨w3, u3, h2, h3, h4⟩ := h.target hn h1
    rw [h2]
    by_cases he : u2 = .leaf .enumerated
    · subst he
      rw [forget_leaf (show forget u3 = .leaf .enumerated from h4)]
      dsimp only
      rw [h3, hn]
    · have he3 : u3 ≠ .leaf .enumerated := by
        rintro rfl
        exact he (forget_leaf h4.symm)
      split
      · rename_i hx; cases hx; exact absurd rfl he3
      · split
        · rename_i hx; cases hx; exact absurd rfl he
        · rfl

theorem declares_stored {S out : Tree} (h : StoredTree S out) {m2 m3 : Module} (hn : m3.name = m2.name) : ∀ (t2 t3 : AType) (n : Name), forget t2 = forget t3 →
    declares out m3 t3 n = declares S m2 t2 n
  | .seqOf q t2 s, t3, n, hf => by
    obtain ⟨t3, s', rfl, h1⟩ := forget_seqOf hf.symm
    rw [declares, declares, declares_stored h hn t2 t3 _ h1.symm]
  | .setOf q t2 s, t3, n, hf => by
    obtain ⟨t3, s', rfl, h1⟩ := forget_setOf hf.symm
    rw [declares, declares, declares_stored h hn t2 t3 _ h1.symm]
  | .prefixed c i k t2, t3, n, hf => by
    obtain ⟨t3, rfl, h1⟩ := forget_prefixed hf.symm
    rw [declares, declares, declares_stored h hn t2 t3 _ h1.symm]
  | .defined q ref ps, t3, n, hf => by
    cases forget_defined hf.symm
    exact declares_reference h hn q ref ps n
  | .leaf k, t3, n, hf => by
    cases forget_leaf hf.symm
    cases k <;> rfl
  | .sequence cs e, t3, n, hf => by
    obtain ⟨cs', rfl, -⟩ := forget_sequence hf.symm
    rfl
  | .set cs e, t3, n, hf => by
    obtain ⟨cs', rfl, -⟩ := forget_set hf.symm
    rfl
  | .choice as s, t3, n, hf => by
    obtain ⟨cs', s', rfl, -⟩ := forget_choice hf.symm
    rfl
  | .objField m c fs, t3, n, hf => by
    cases t3 <;> cases hf
    rfl

mutual
theorem forget_forget : ∀ t : AType, forget (forget t) = forget t
  | .leaf _ => rfl
  | .objField _ _ _ => rfl
  | .defined _ _ _ => rfl
  | .choice as s => by rw [forget, forget, forgetAlts_forget as]
  | .sequence cs e => by rw [forget, forget, forgetComps_forget cs]
  | .set cs e => by rw [forget, forget, forgetComps_forget cs]
  | .seqOf n t s => by rw [forget, forget, forget_forget t]
  | .setOf n t s => by rw [forget, forget, forget_forget t]
  | .prefixed c n k t => by rw [forget, forget, forget_forget t]
theorem forgetAlts_forget : ∀ as : List Named, forgetAlts (forgetAlts as) = forgetAlts as
  | [] => rfl
  | .mk n t :: as => by rw [forgetAlts, forgetAlts, forget_forget t, forgetAlts_forget as]
theorem forgetComps_forget : ∀ cs : List Comp, forgetComps (forgetComps cs) = forgetComps cs
  | [] => rfl
  | .mk n t o d co s :: cs => by rw [forgetComps, forgetComps, forget_forget t, forgetComps_forget cs]
end

theorem storedTree_refl {S : Tree} (h : Distinct S) : StoredTree S S where
  distinct := h
  modules := h.modules
  stored := fun m hm => ⟨m, hm, m.assignments, rfl, .refl _⟩
  only := fun m hm => ⟨m, hm, m.assignments, rfl, .refl _⟩

theorem declaresA_forget {S out : Tree} (h : StoredTree S out) {m2 m3 : Module} (hn : m3.name = m2.name) (a : Assignment) :
    declaresA out m3 a = declaresA S m2 (forgetA a) := by
  unfold declaresA forgetA
  cases hb : a.body with
  | type t => exact declares_stored h hn _ _ _ (forget_forget t)
  | _ => rw [hb]

theorem flatMap_stored {S out : Tree} (h : StoredTree S out) {m2 m3 : Module} (hs : StoredModule m2 m3) (hm : m2 ∈ S.modules) :
    (m3.assignments.flatMap (declaresA out m3)).Perm (m2.assignments.flatMap (declaresA S m2)) := by
  have e3 : m3.assignments.flatMap (declaresA out m3) = (m3.assignments.map forgetA).flatMap (declaresA S m2) := by
    rw [List.flatMap_map]
    exact congrArg (fun f => List.flatMap f _) (funext fun a => declaresA_forget h hs.name a)
  have e2 : m2.assignments.flatMap (declaresA S m2) = (m2.assignments.map forgetA).flatMap (declaresA S m2) := by
    rw [List.flatMap_map]
    exact congrArg (fun f => List.flatMap f _) (funext fun a => declaresA_forget (storedTree_refl h.distinct) rfl a)
  rw [e3, e2]
  obtain ⟨as, rfl, hp⟩ := hs
  exact hp.flatMap_right _

theorem comps_declares {S out : Tree} (h : StoredTree S out) {m2 m3 : Module} (hn : m3.name = m2.name) (n : Name) : ∀ {cs2 cs3 : List Comp}, forgetComps cs2 = forgetComps cs3 →
    (cs3.flatMap fun c => declares out m3 c.type (memberName c.name n)) = cs2.flatMap fun c => declares S m2 c.type (memberName c.name n)
  | [], [], _ => rfl
  | [], .mk _ _ _ _ _ _ :: _, hf => by cases hf
  | .mk _ _ _ _ _ _ :: _, [], hf => by cases hf
  | .mk n2 t2 o2 d2 c2 s2 :: cs2, .mk n3 t3 o3 d3 c3 s3 :: cs3, hf => by
    rw [forgetComps, forgetComps] at hf
    obtain ⟨h1, h2⟩ := List.cons.inj hf
    obtain ⟨rfl, h3, -⟩ := Comp.mk.injEq .. ▸ h1
    rw [List.flatMap_cons, List.flatMap_cons, comps_declares h hn n h2]
    show declares out m3 t3 _ ++ _ = declares S m2 t2 _ ++ _
    rw [declares_stored h hn t2 t3 _ h3]
    rfl

theorem alts_declares {S out : Tree} (h : StoredTree S out) {m2 m3 : Module} (hn : m3.name = m2.name) : ∀ {cs2 cs3 : List Named}, forgetAlts cs2 = forgetAlts cs3 →
    (cs3.flatMap fun c => declares out m3 c.type (typeName c.name)) = cs2.flatMap fun c => declares S m2 c.type (typeName c.name)
  | [], [], _ => rfl
  | [], .mk _ _ :: _, hf => by cases hf
  | .mk _ _ :: _, [], hf => by cases hf
  | .mk n2 t2 :: cs2, .mk n3 t3 :: cs3, hf => by
    rw [forgetAlts, forgetAlts] at hf
    obtain ⟨h1, h2⟩ := List.cons.inj hf
    obtain ⟨rfl, h3⟩ := Named.mk.injEq .. ▸ h1
    rw [List.flatMap_cons, List.flatMap_cons, alts_declares h hn h2]
    show declares out m3 t3 _ ++ _ = declares S m2 t2 _ ++ _
    rw [declares_stored h hn t2 t3 _ h3]
    rfl

theorem StoredTree.placed {S out : Tree} (h : StoredTree S out) {m3 : Module} {n : Name} {t3 : AType} (hp : Placed out m3 n t3) :
    ∃ m2 ∈ S.modules, ∃ t2, Placed S m2 n t2 ∧ forget t2 = forget t3 ∧ StoredModule m2 m3 := by
  induction hp with
  | assigned hm ha hb =>
    obtain ⟨m2, hm2, hs⟩ := h.only _ hm
    obtain ⟨a, ha', hn, hx⟩ := hs.assignment ha
    obtain ⟨t, h1, h2⟩ := hx _ hb
    exact ⟨m2, hm2, t, hn ▸ .assigned hm2 ha' h1, h2, hs⟩
  | sequence _ hc ih =>
    obtain ⟨m2, hm, t2, h1, h2, h3⟩ := ih
    obtain ⟨cs, rfl, h4⟩ := forget_sequence h2
    obtain ⟨c, h5, hn, h6, -⟩ := forgetComps_other h4 hc
    exact ⟨m2, hm, _, hn ▸ .sequence h1 h5, h6, h3⟩
  | set _ hc ih =>
    obtain ⟨m2, hm, t2, h1, h2, h3⟩ := ih
    obtain ⟨cs, rfl, h4⟩ := forget_set h2
    obtain ⟨c, h5, hn, h6, -⟩ := forgetComps_other h4 hc
    exact ⟨m2, hm, _, hn ▸ .set h1 h5, h6, h3⟩
  | choice _ hc ih =>
    obtain ⟨m2, hm, t2, h1, h2, h3⟩ := ih
    obtain ⟨cs, s, rfl, h4⟩ := forget_choice h2
    obtain ⟨c, h5, hn, h6⟩ := forgetAlts_other h4 hc
    exact ⟨m2, hm, _, hn ▸ .choice h1 h5, h6, h3⟩
  | seqOf _ ih =>
    obtain ⟨m2, hm, t2, h1, h2, h3⟩ := ih
    obtain ⟨u, s, rfl, h4⟩ := forget_seqOf h2
    exact ⟨m2, hm, _, .seqOf h1, h4, h3⟩
  | setOf _ ih =>
    obtain ⟨m2, hm, t2, h1, h2, h3⟩ := ih
    obtain ⟨u, s, rfl, h4⟩ := forget_setOf h2
    exact ⟨m2, hm, _, .setOf h1, h4, h3⟩
  | prefixed _ ih =>
    obtain ⟨m2, hm, t2, h1, h2, h3⟩ := ih
    obtain ⟨u, rfl, h4⟩ := forget_prefixed h2
    exact ⟨m2, hm, _, .prefixed h1, h4, h3⟩

theorem forget_isStruct {t u : AType} (h : forget t = forget u) : isStruct t = isStruct u := by
  have e : ∀ t, isStruct (forget t) = isStruct t := fun t => by cases t <;> rfl
  rw [← e t, h, e u]

theorem forget_isCore {t u : AType} (h : forget t = forget u) : isCore t = isCore u := by
  have e : ∀ t, isCore (forget t) = isCore t := fun t => by cases t <;> rfl
  rw [← e t, h, e u]

/-- The conditions do not depend on storage and order. -/
theorem names_stored {S out : Tree} (h : StoredTree S out) (hS : CompilableNames S) : CompilableNames out where
  classes := fun m3 hm a ha d hb => by
    obtain ⟨m2, hm2, as, rfl, hp⟩ := h.only m3 hm
    obtain ⟨a2, ha2, hf⟩ := List.mem_map.1 (hp.mem_iff.1 (List.mem_map.2 ⟨a, ha, rfl⟩) : forgetA a ∈ m2.assignments.map forgetA)
    have e : forgetA a = a := by unfold forgetA; rw [hb]
    rw [e] at hf
    cases hb2 : a2.body with
    | type t =>
      unfold forgetA at hf
      rw [hb2] at hf
      rw [← hf] at hb
      cases hb
    | value t v =>
      have : forgetA a2 = a2 := by unfold forgetA; rw [hb2]
      rw [this] at hf
      subst hf
      rw [hb2] at hb; cases hb
    | objectClass d2 => exact hS.classes m2 hm2 a2 ha2 d2 hb2
    | _ =>
      have : forgetA a2 = a2 := by unfold forgetA; rw [hb2]
      rw [this] at hf
      subst hf
      rw [hb2] at hb; cases hb
  universal := fun m3 c n k t ho => by
    obtain ⟨m2, hm, t2, h1, h2, h3⟩ := h.occurs ho
    obtain ⟨u, rfl, -⟩ := forget_prefixed h2
    exact hS.universal _ _ _ _ _ h1
  direct := fun m3 q ref ps wm u ho hc hu => by
    obtain ⟨m2, hm, t2, h1, h2, h3⟩ := h.occurs ho
    cases forget_defined h2
    have hsim : Sim S out SameRef m2 (.defined q ref ps) m3 (.defined q ref ps) := .defined ⟨h3.name.symm, rfl, rfl⟩
    obtain ⟨wm', u', h4, h5⟩ := hsim.symm.core h.corr.symm hc
    have h6 := hS.direct m2 q ref ps wm' u' h1 h4 (h5.simple (core_isCore hc) (core_isCore h4) hu)
    obtain ⟨w3, u3, h7, -, h8⟩ := h.target h3.name h6
    obtain ⟨rfl, rfl⟩ := hc.unique (.reference h7 (.here (by rw [forget_isCore h8]; exact core_isCore h4)))
    exact h7
  elements := fun m3 n t s ho => by
    rcases ho with ho | ho
    · obtain ⟨m2, hm, t2, h1, h2, h3⟩ := h.occurs ho
      obtain ⟨u, s', rfl, h4⟩ := forget_seqOf h2
      rw [← forget_isStruct (forget_untag h4)]
      exact hS.elements m2 n u s' (.inl h1)
    · obtain ⟨m2, hm, t2, h1, h2, h3⟩ := h.occurs ho
      obtain ⟨u, s', rfl, h4⟩ := forget_setOf h2
      rw [← forget_isStruct (forget_untag h4)]
      exact hS.elements m2 n u s' (.inr h1)
  typeValues := fun m3 hm a ha => by
    obtain ⟨m2, hm2, hs⟩ := h.only m3 hm
    obtain ⟨a2, ha2, hn, -⟩ := hs.assignment ha
    exact hn ▸ hS.typeValues m2 hm2 a2 ha2
  fieldValues := fun m3 n t hf => by
    obtain ⟨m2, hm2, t2, h1, -⟩ := h.field hf
    exact hS.fieldValues m2 n t2 h1
  namespaces := fun m3 hm => by
    obtain ⟨m2, hm2, hs⟩ := h.only m3 hm
    exact (flatMap_stored h hs hm2).nodup_iff.2 (hS.namespaces m2 hm2)
  sequences := fun m3 n cs e hp => by
    obtain ⟨m2, hm2, t2, h1, h2, h3⟩ := h.placed hp
    obtain ⟨cs2, rfl, h4⟩ := forget_sequence h2
    rw [comps_declares h h3.name n h4]
    exact hS.sequences m2 n cs2 e h1
  sets := fun m3 n cs e hp => by
    obtain ⟨m2, hm2, t2, h1, h2, h3⟩ := h.placed hp
    obtain ⟨cs2, rfl, h4⟩ := forget_set h2
    rw [comps_declares h h3.name n h4]
    exact hS.sets m2 n cs2 e h1
  choices := fun m3 n as s hp => by
    obtain ⟨m2, hm2, t2, h1, h2, h3⟩ := h.placed hp
    obtain ⟨as2, s2, rfl, h4⟩ := forget_choice h2
    rw [alts_declares h h3.name h4]
    exact hS.choices m2 n as2 s2 h1
  sequenceNames := fun m3 n cs e c hp hc hst => by
    obtain ⟨m2, hm2, t2, h1, h2, h3⟩ := h.placed hp
    obtain ⟨cs2, rfl, h4⟩ := forget_sequence h2
    obtain ⟨c2, h5, h6, h7, -⟩ := forgetComps_other h4 hc
    rw [← h6]
    exact hS.sequenceNames m2 n cs2 e c2 h1 h5 (by rw [forget_isStruct (forget_untag h7)]; exact hst)
  setNames := fun m3 n cs e c hp hc hst => by
    obtain ⟨m2, hm2, t2, h1, h2, h3⟩ := h.placed hp
    obtain ⟨cs2, rfl, h4⟩ := forget_set h2
    obtain ⟨c2, h5, h6, h7, -⟩ := forgetComps_other h4 hc
    rw [← h6]
    exact hS.setNames m2 n cs2 e c2 h1 h5 (by rw [forget_isStruct (forget_untag h7)]; exact hst)

/-- The split modules as they are. -/
theorem keptTree_refl {S : Tree} (h : Distinct S) : KeptTree S S where
  stored := storedTree_refl h
  kept := fun m hm => ⟨m, hm, rfl, rfl, fun _ => Iff.rfl⟩

end FastBer.Ast
