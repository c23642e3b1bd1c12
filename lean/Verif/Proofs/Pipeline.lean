import Verif.Proofs.SplitOccurs
import Verif.Proofs.DependOrder
/-!
# The passes before the output is written, together
-/
namespace FastBer.Ast
open FastBer.Ast.Spec

/-! ## Storage modes do not matter -/

theorem forgetAlts_get (as : List Named) (i : Nat) : (forgetAlts as)[i]? = as[i]?.map fun a => .mk a.name (forget a.type) := by
  induction as generalizing i with
  | nil => rfl
  | cons a as ih =>
    cases a
    cases i with
    | zero => rfl
    | succ i => rw [forgetAlts, List.getElem?_cons_succ, List.getElem?_cons_succ]; exact ih i

theorem forgetComps_get (cs : List Comp) (i : Nat) :
    (forgetComps cs)[i]? = cs[i]?.map fun c => .mk c.name (forget c.type) c.optional c.default c.componentsOf .static_ := by
  induction cs generalizing i with
  | nil => rfl
  | cons a as ih =>
    cases a
    cases i with
    | zero => rfl
    | succ i => rw [forgetComps, List.getElem?_cons_succ, List.getElem?_cons_succ]; exact ih i

theorem forgetAlts_length (as : List Named) : (forgetAlts as).length = as.length := by
  induction as with
  | nil => rfl
  | cons a as ih => cases a; rw [forgetAlts]; simp [ih]

theorem forgetComps_length (as : List Comp) : (forgetComps as).length = as.length := by
  induction as with
  | nil => rfl
  | cons a as ih => cases a; rw [forgetComps]; simp [ih]

theorem hasTag_forget (t : AType) : hasTag (forget t) = hasTag t := by
  cases t <;> rfl

/-- The same reference in modules of the same name. -/
def SameRef : RefRel := fun m1 m ref m2 m' ref' => m1.name = m2.name ∧ m = m' ∧ ref = ref'

theorem forget_sim {T1 T2 : Tree} {m1 m2 : Module} (hn : m1.name = m2.name) (ht : m1.tagging = m2.tagging) :
    ∀ (t t' : AType), forget t = forget t' → Sim T1 T2 SameRef m1 t m2 t'
  | .leaf b, t', h => by cases t' <;> cases h; exact .leaf ..
  | .objField q c fs, t', h => by cases t' <;> cases h; exact .objField ..
  | .defined q ref ps, t', h => by cases t' <;> cases h; exact .defined ⟨hn, rfl, rfl⟩
  | .choice as s, t', h => by
    cases t' with
    | choice as' s' =>
      have h := (AType.choice.injEq .. ▸ h).1
      refine .choice _ _ ht (by rw [← forgetAlts_length, h, forgetAlts_length]) ?_ ?_
      all_goals
        intro i a a' h1 h2
        have hg : (forgetAlts as)[i]? = (forgetAlts as')[i]? := by rw [h]
        rw [forgetAlts_get, forgetAlts_get, h1, h2] at hg
        have hg := Named.mk.injEq .. ▸ Option.some.inj hg
      · exact ⟨hg.1, by rw [← hasTag_forget, hg.2, hasTag_forget]⟩
      · have := List.sizeOf_lt_of_mem (List.mem_of_getElem? h1)
        exact forget_sim hn ht a.type a'.type hg.2
    | leaf | objField | defined | sequence | set | seqOf | setOf | prefixed => cases h
  | .sequence cs e, t', h => by
    cases t' with
    | sequence cs' e' =>
      obtain ⟨hh, rfl⟩ : forgetComps cs = forgetComps cs' ∧ e = e' := by injection h with h1 h2; exact ⟨h1, h2⟩
      refine .sequence _ ht (by rw [← forgetComps_length, hh, forgetComps_length]) ?_ ?_
      all_goals
        intro i a a' h1 h2
        have hg : (forgetComps cs)[i]? = (forgetComps cs')[i]? := by rw [hh]
        rw [forgetComps_get, forgetComps_get, h1, h2] at hg
        have hg := Comp.mk.injEq .. ▸ Option.some.inj hg
      · exact ⟨hg.1, by rw [← hasTag_forget, hg.2.1, hasTag_forget], hg.2.2.1, hg.2.2.2.1⟩
      · have := List.sizeOf_lt_of_mem (List.mem_of_getElem? h1)
        exact forget_sim hn ht a.type a'.type hg.2.1
    | leaf | objField | defined | choice | set | seqOf | setOf | prefixed => cases h
  | .set cs e, t', h => by
    cases t' with
    | set cs' e' =>
      obtain ⟨hh, rfl⟩ : forgetComps cs = forgetComps cs' ∧ e = e' := by injection h with h1 h2; exact ⟨h1, h2⟩
      refine .set _ ht (by rw [← forgetComps_length, hh, forgetComps_length]) ?_ ?_
      all_goals
        intro i a a' h1 h2
        have hg : (forgetComps cs)[i]? = (forgetComps cs')[i]? := by rw [hh]
        rw [forgetComps_get, forgetComps_get, h1, h2] at hg
        have hg := Comp.mk.injEq .. ▸ Option.some.inj hg
      · exact ⟨hg.1, by rw [← hasTag_forget, hg.2.1, hasTag_forget], hg.2.2.1, hg.2.2.2.1⟩
      · have := List.sizeOf_lt_of_mem (List.mem_of_getElem? h1)
        exact forget_sim hn ht a.type a'.type hg.2.1
    | leaf | objField | defined | choice | sequence | seqOf | setOf | prefixed => cases h
  | .seqOf n t s, t', h => by
    cases t' with
    | seqOf n' u s' => exact .seqOf _ _ _ _ (forget_sim hn ht t u (AType.seqOf.injEq .. ▸ h).2.1)
    | leaf | objField | defined | choice | sequence | set | setOf | prefixed => cases h
  | .setOf n t s, t', h => by
    cases t' with
    | setOf n' u s' => exact .setOf _ _ _ _ (forget_sim hn ht t u (AType.setOf.injEq .. ▸ h).2.1)
    | leaf | objField | defined | choice | sequence | set | seqOf | prefixed => cases h
  | .prefixed c n k t, t', h => by
    cases t' with
    | prefixed c' n' k' u =>
      obtain ⟨rfl, rfl, rfl, hh⟩ : c = c' ∧ n = n' ∧ k = k' ∧ forget t = forget u := by injection h with h1 h2 h3 h4; exact ⟨h1, h2, h3, h4⟩
      exact .prefixed _ _ _ ht (forget_sim hn ht t u hh)
    | leaf | objField | defined | choice | sequence | set | seqOf | setOf => cases h
termination_by t => sizeOf t
decreasing_by all_goals first | (cases a; simp_all [Named.type, Comp.type]; omega) | (simp; try omega)

/-- One module: the assignments are permuted, storage modes may be different. -/
def StoredModule (m m' : Module) : Prop := ∃ as, m' = { m with assignments := as } ∧ (as.map forgetA).Perm (m.assignments.map forgetA)

/-- All modules. -/
structure StoredTree (S out : Tree) : Prop where
  distinct : Distinct S
  modules : out.modules.Pairwise fun a b => a.name ≠ b.name
  stored : ∀ m ∈ S.modules, ∃ m' ∈ out.modules, StoredModule m m'
  only : ∀ m' ∈ out.modules, ∃ m ∈ S.modules, StoredModule m m'

theorem StoredTree.distinct' {S out : Tree} (h : StoredTree S out) : Distinct out where
  modules := h.modules
  assignments := fun m' hm' => by
    obtain ⟨m, hm, as, rfl, hp⟩ := h.only m' hm'
    have h1 := h.distinct.assignments m hm
    have e : ∀ l : List Assignment, (l.map forgetA).map (·.name) = l.map (·.name) := fun l => by
      rw [List.map_map]; exact List.map_congr_left fun a _ => forgetA_name a
    have := (hp.map (·.name))
    rw [e, e] at this
    exact pairwise_nodup.1 (this.nodup_iff.2 (pairwise_nodup.2 h1))

theorem forgetA_type {a a' : Assignment} (h : forgetA a = forgetA a') {t : AType} (hb : a.body = .type t) :
    a.name = a'.name ∧ ∃ t', a'.body = .type t' ∧ forget t = forget t' := by
  refine ⟨by rw [← forgetA_name, h, forgetA_name], ?_⟩
  unfold forgetA at h
  rw [hb] at h
  dsimp only at h
  split at h
  · rename_i t' ht'
    refine ⟨t', ht', ?_⟩
    have := congrArg Assignment.body h
    exact Body.type.inj this
  · rename_i hx
    exact absurd (congrArg Assignment.body h).symm (hx _)

theorem StoredTree.corr {S out : Tree} (h : StoredTree S out) : Corr S out SameRef where
  fwd := by
    rintro m1 m ref m2 m' ref' w u ⟨hn, rfl, rfl⟩ ht
    obtain ⟨h1, h2, a, h3, rfl, h4⟩ := target_mem ht
    obtain ⟨w', hw', as, rfl, hp⟩ := h.stored w h1
    have : forgetA a ∈ as.map forgetA := hp.mem_iff.2 (List.mem_map.2 ⟨a, h3, rfl⟩)
    obtain ⟨a', ha', hf⟩ := List.mem_map.1 this
    obtain ⟨h5, t', h6, h7⟩ := forgetA_type hf.symm h4
    exact ⟨_, t', h.distinct'.target hw' (by rw [← hn]; exact h2) ha' h5.symm h6, forget_sim (m1 := w) (m2 := { w with assignments := as }) rfl rfl _ _ h7⟩
  bwd := by
    rintro m1 m ref m2 m' ref' w u ⟨hn, rfl, rfl⟩ ht
    obtain ⟨h1, h2, a, h3, rfl, h4⟩ := target_mem ht
    obtain ⟨w', hw', as, rfl, hp⟩ := h.only w h1
    have : forgetA a ∈ w'.assignments.map forgetA := hp.mem_iff.1 (List.mem_map.2 ⟨a, h3, rfl⟩)
    obtain ⟨a', ha', hf⟩ := List.mem_map.1 this
    obtain ⟨h5, t', h6, h7⟩ := forgetA_type hf.symm h4
    exact ⟨_, t', h.distinct.target hw' (by rw [hn]; exact h2) ha' h5.symm h6, forget_sim (m1 := w') (m2 := { w' with assignments := as }) rfl rfl _ _ h7.symm⟩

theorem reorderLoop_ok {rf : Nat} {ms done out : List Module} (h : reorderLoop rf done ms = .ok out) :
    ∃ out', out = done ++ out' ∧ Pointwise StoredModule ms out' := by
  induction ms generalizing done with
  | nil => cases h; exact ⟨[], by simp, .nil⟩
  | cons m ms ih =>
    rw [reorderLoop] at h
    obtain ⟨as, h1, h2⟩ := Res.bind_eq_ok.1 h
    obtain ⟨out', rfl, h3⟩ := ih h2
    exact ⟨{ m with assignments := as } :: out', by simp, .cons ⟨as, rfl, reorder_perm h1⟩ h3⟩

/-! ## Passes that have nothing to do -/

theorem expandComps_plain (find : Option Name → Name → Res (Option Assignment)) (cs : List Comp) (h : ∀ c ∈ cs, c.componentsOf = none) :
    expandComps find cs = .ok cs := by
  induction cs with
  | nil => rfl
  | cons c cs ih =>
    rw [expandComps, h c List.mem_cons_self]
    dsimp only
    rw [ih fun c hc => h c (List.mem_cons_of_mem _ hc)]
    rfl

theorem expandAssignment_plain (find : Option Name → Name → Res (Option Assignment)) (a : Assignment) (h : ∀ t, a.body = .type t → ¬ HasComponentsOf t) :
    expandAssignment find a = .ok a := by
  obtain ⟨n, b, ps⟩ := a
  unfold expandAssignment
  split
  · rename_i cs e hb
    have hc : ∀ c ∈ cs, c.componentsOf = none := fun c hc => by
      cases hx : c.componentsOf with
      | none => rfl
      | some x => exact absurd ⟨cs, e, .inl rfl, c, hc, by rw [hx]; nofun⟩ (h _ hb)
    rw [expandComps_plain find cs hc]
    have : cs.filter (fun c => c.componentsOf.isNone) = cs := List.filter_eq_self.2 fun c hc' => by rw [hc c hc']; rfl
    show Res.ok _ = _
    rw [this]
    cases hb
    rfl
  · rfl

theorem expandAssignments_plain (before : List Module) (m : Module) (after : List Module) (as done : List Assignment)
    (h : ∀ a ∈ as, ∀ t, a.body = .type t → ¬ HasComponentsOf t) : expandAssignments before m after done as = .ok (done ++ as) := by
  induction as generalizing done with
  | nil => rw [expandAssignments, List.append_nil]
  | cons a as ih =>
    rw [expandAssignments, expandAssignment_plain _ a (h a List.mem_cons_self), Res.ok_bind, ih _ fun a ha => h a (List.mem_cons_of_mem _ ha)]
    simp

theorem expandModules_plain (ms done : List Module) (h : ∀ m ∈ ms, ∀ a ∈ m.assignments, ∀ t, a.body = .type t → ¬ HasComponentsOf t) :
    expandModules done ms = .ok (done ++ ms) := by
  induction ms generalizing done with
  | nil => rw [expandModules, List.append_nil]
  | cons m ms ih =>
    rw [expandModules, expandAssignments_plain _ _ _ _ _ (h m List.mem_cons_self), Res.ok_bind]
    rw [List.nil_append, ih _ fun m hm => h m (List.mem_cons_of_mem _ hm)]
    simp

theorem resolveComponentsOf_plain {T : Tree} (h : ∀ m ∈ T.modules, ∀ a ∈ m.assignments, ∀ t, a.body = .type t → ¬ HasComponentsOf t) :
    resolveComponentsOf T = .ok T := by
  unfold resolveComponentsOf
  rw [expandModules_plain _ _ h]
  rfl

mutual
theorem classConcrete_plain {tree : Tree} {mod : Name} {P : AType → Prop} (hP : ∀ t u, P t → Child t u → P u) (ho : ∀ q c fs, ¬ P (.objField q c fs)) :
    ∀ t, P t → classConcrete tree mod t = .ok t
  | .leaf b, _ => by rw [classConcrete]
  | .objField q c fs, h => absurd h (ho q c fs)
  | .defined q ref ps, _ => by rw [classConcrete]
  | .choice as s, h => by
    rw [classConcrete, classConcreteAlts_plain hP ho as fun a ha => hP _ _ h (.choice ha)]; rfl
  | .sequence as s, h => by
    rw [classConcrete, classConcreteComps_plain hP ho as fun a ha => hP _ _ h (.sequence ha)]; rfl
  | .set as s, h => by
    rw [classConcrete, classConcreteComps_plain hP ho as fun a ha => hP _ _ h (.set ha)]; rfl
  | .seqOf n t s, h => by rw [classConcrete, classConcrete_plain hP ho t (hP _ _ h .seqOf)]; rfl
  | .setOf n t s, h => by rw [classConcrete, classConcrete_plain hP ho t (hP _ _ h .setOf)]; rfl
  | .prefixed c n k t, h => by rw [classConcrete, classConcrete_plain hP ho t (hP _ _ h .prefixed)]; rfl
theorem classConcreteAlts_plain {tree : Tree} {mod : Name} {P : AType → Prop} (hP : ∀ t u, P t → Child t u → P u) (ho : ∀ q c fs, ¬ P (.objField q c fs)) :
    ∀ as : List Named, (∀ a ∈ as, P a.type) → classConcreteAlts tree mod as = .ok as
  | [], _ => by rw [classConcreteAlts]
  | .mk n t :: as, h => by
    rw [classConcreteAlts, classConcrete_plain hP ho t (h _ List.mem_cons_self), Res.ok_bind,
      classConcreteAlts_plain hP ho as fun a ha => h a (List.mem_cons_of_mem _ ha)]
    rfl
theorem classConcreteComps_plain {tree : Tree} {mod : Name} {P : AType → Prop} (hP : ∀ t u, P t → Child t u → P u) (ho : ∀ q c fs, ¬ P (.objField q c fs)) :
    ∀ as : List Comp, (∀ a ∈ as, P a.type) → classConcreteComps tree mod as = .ok as
  | [], _ => by rw [classConcreteComps]
  | .mk n t o d co s :: as, h => by
    rw [classConcreteComps, classConcrete_plain hP ho t (h _ List.mem_cons_self), Res.ok_bind,
      classConcreteComps_plain hP ho as fun a ha => h a (List.mem_cons_of_mem _ ha)]
    rfl
end

theorem foldlM_keep {α β : Type} {f : α → β → Res α} {x : α} (l : List β) (h : ∀ b ∈ l, ∀ y, f x b = .ok y → y = x) {y : α} (hf : l.foldlM f x = .ok y) : y = x := by
  induction l with
  | nil => cases hf; rfl
  | cons b l ih =>
    rw [List.foldlM_cons] at hf
    obtain ⟨z, h1, h2⟩ := Res.bind_eq_ok.1 hf
    have := h b List.mem_cons_self z h1
    subst this
    exact ih (fun b hb => h b (List.mem_cons_of_mem _ hb)) h2

theorem foldl_keep {α β : Type} {f : α → β → α} {x : α} (l : List β) (h : ∀ b ∈ l, f x b = x) : l.foldl f x = x := by
  induction l with
  | nil => rfl
  | cons b l ih => rw [List.foldl_cons, h b List.mem_cons_self]; exact ih fun b hb => h b (List.mem_cons_of_mem _ hb)

theorem mapM_id {α : Type} {f : α → Res α} (l : List α) (h : ∀ a ∈ l, f a = .ok a) : l.mapM f = .ok l := by
  induction l with
  | nil => rfl
  | cons a l ih => rw [List.mapM_cons, h a List.mem_cons_self, Res.ok_bind, ih fun a ha => h a (List.mem_cons_of_mem _ ha)]; rfl

theorem objectClassNames_plain {T : Tree} (hc : ∀ m ∈ T.modules, ∀ a ∈ m.assignments, ∀ fs, a.body ≠ .objectClass fs) {ns : ClassNames}
    (h : objectClassNames T = .ok ns) : ns = [] := by
  have hround : ∀ ns, classNamesRound T [] = .ok ns → ns = [] := by
    intro ns h
    unfold classNamesRound at h
    obtain ⟨z, h1, h2⟩ := Res.bind_eq_ok.1 h
    have : z = [] := by
      refine foldlM_keep _ (fun m hm y hy => ?_) h1
      refine foldlM_keep _ (fun a ha y hy => ?_) hy
      have href : ∀ q ref y, classNamesRef T m.name a q ref [] = .ok y → y = [] := by
        intro q ref y hy
        unfold classNamesRef at hy
        split at hy
        · cases hy; rfl
        · obtain ⟨wm, h3, h4⟩ := Res.bind_eq_ok.1 hy
          obtain ⟨b, h5, h6⟩ := Res.bind_eq_ok.1 h4
          have hwm : wm ∈ T.modules := by
            unfold findModule at h3; split at h3
            · cases h3; exact List.mem_of_find?_eq_some (by assumption)
            · cases h3
          have hb : b ∈ wm.assignments := by
            unfold findAssignment at h5; split at h5
            · cases h5; exact List.mem_of_find?_eq_some (by assumption)
            · cases h5
          split at h6
          · rename_i fs hx
            exact absurd hx (hc wm hwm b hb fs)
          · rw [if_neg (by simp)] at h6
            cases h6; rfl
      unfold classNamesAssignment at hy
      split at hy
      · exact href _ _ _ hy
      · exact href _ _ _ hy
      · rename_i fs hx
        exact absurd hx (hc m hm a ha fs)
      · cases hy; rfl
    subst this
    cases h2
    unfold classNamesImports
    refine foldl_keep _ fun m _ => foldl_keep _ fun i _ => foldl_keep _ fun n _ => ?_
    rfl
  unfold objectClassNames at h
  rw [classNamesLoop] at h
  obtain ⟨z, h1, h2⟩ := Res.bind_eq_ok.1 h
  have := hround z h1
  subst this
  rw [if_neg (by simp)] at h2
  cases h2
  rfl

theorem resolveObjectClasses_plain {T out : Tree} (hc : ∀ m ∈ T.modules, ∀ a ∈ m.assignments, ∀ fs, a.body ≠ .objectClass fs)
    (hp : ∀ m ∈ T.modules, ∀ a ∈ m.assignments, a.params = []) (ho : ∀ m q c fs, ¬ Occurs T m (.objField q c fs))
    (h : resolveObjectClasses T = .ok out) : out = T := by
  unfold resolveObjectClasses at h
  obtain ⟨ns, h1, h2⟩ := Res.bind_eq_ok.1 h
  have := objectClassNames_plain hc h1
  subst this
  rw [mapM_id T.modules] at h2
  · cases h2
    have : T.modules.map (removeClasses []) = T.modules := by
      conv => rhs; rw [← List.map_id T.modules]
      refine List.map_congr_left fun m hm => ?_
      obtain ⟨mn, mt, mi, ma⟩ := m
      unfold removeClasses
      have e1 : ma.filter (fun a => !isRemoved mn [] a) = ma := by
        refine List.filter_eq_self.2 fun a ha => ?_
        unfold isRemoved
        split
        · rename_i fs hx
          exact absurd hx (hc _ hm a ha fs)
        · rfl
        · rfl
        · rw [hp _ hm a ha]; rfl
      have e2 : mi.map (fun i => { i with types := i.types.filter fun n => !([] : ClassNames).contains (i.module, n) }) = mi := by
        conv => rhs; rw [← List.map_id mi]
        refine List.map_congr_left fun i _ => ?_
        show Import.mk .. = _
        have : i.types.filter (fun n => !([] : ClassNames).contains (i.module, n)) = i.types := List.filter_eq_self.2 fun n _ => rfl
        rw [this]
        rfl
      show Module.mk .. = _
      rw [e1, e2]
      rfl
    rw [this]
  · intro m hm
    rw [mapM_id m.assignments]
    · rfl
    · intro a ha
      unfold classAssignment
      split
      · rename_i t hb
        rw [classConcrete_plain (P := Occurs T m) (fun t u => occurs_child) (ho m) t (.assigned hm ha hb)]
        obtain ⟨n, b, ps⟩ := a
        cases hb
        rfl
      · rfl

/-! ## Together -/

theorem pointwise_left {α β : Type} {r : α → β → Prop} {l : List α} {l' : List β} (h : Pointwise r l l') {a : α} (ha : a ∈ l) : ∃ b ∈ l', r a b := by
  induction h with
  | nil => cases ha
  | cons h1 _ ih =>
    rcases List.mem_cons.1 ha with rfl | ha
    · exact ⟨_, List.mem_cons_self, h1⟩
    · obtain ⟨b, h2, h3⟩ := ih ha
      exact ⟨b, List.mem_cons_of_mem _ h2, h3⟩

theorem pointwise_right {α β : Type} {r : α → β → Prop} {l : List α} {l' : List β} (h : Pointwise r l l') {b : β} (hb : b ∈ l') : ∃ a ∈ l, r a b := by
  induction h with
  | nil => cases hb
  | cons h1 _ ih =>
    rcases List.mem_cons.1 hb with rfl | hb
    · exact ⟨_, List.mem_cons_self, h1⟩
    · obtain ⟨b, h2, h3⟩ := ih hb
      exact ⟨b, List.mem_cons_of_mem _ h2, h3⟩

theorem pointwise_key {α β : Type} {r : α → β → Prop} {l : List α} {l' : List β} (h : Pointwise r l l') {key : α → Name} {key' : β → Name}
    (hk : ∀ a b, r a b → key' b = key a) : l'.map key' = l.map key := by
  induction h with
  | nil => rfl
  | cons h1 _ ih => rw [List.map_cons, List.map_cons, ih, hk _ _ h1]

/-- The assignments after splitting. -/
theorem splitAssignments_bodies {own : Name} {as : List Assignment} {k : Nat} {a : Assignment} (ha : a ∈ (splitAssignments own as k).1) :
    a ∈ as ∨ ((∃ t, a.body = .type t) ∧ (a.params = [] ∨ ∃ b ∈ as, a.params = b.params)) := by
  induction as generalizing k with
  | nil => cases ha
  | cons b as ih =>
    rw [splitAssignments] at ha
    rcases List.mem_append.1 ha with ha | ha
    · unfold splitAssignment at ha
      split at ha
      · rename_i t hb
        rcases List.mem_append.1 ha with ha | ha
        · obtain ⟨p, _, rfl⟩ := List.mem_map.1 ha
          exact .inr ⟨⟨_, rfl⟩, .inl rfl⟩
        · rw [List.mem_singleton] at ha
          subst ha
          exact .inr ⟨⟨_, rfl⟩, .inr ⟨b, List.mem_cons_self, rfl⟩⟩
      · rw [List.mem_singleton] at ha
        subst ha
        exact .inl List.mem_cons_self
    · rcases ih ha with h | ⟨h1, h2 | ⟨c, h2, h3⟩⟩
      · exact .inl (List.mem_cons_of_mem _ h)
      · exact .inr ⟨h1, .inl h2⟩
      · exact .inr ⟨h1, .inr ⟨c, List.mem_cons_of_mem _ h2, h3⟩⟩

theorem SplitTree.params {src S : Tree} (h : SplitTree src S) : ∀ m ∈ S.modules, ∀ a ∈ m.assignments, a.params = [] := by
  intro m2 hm2 a ha
  obtain ⟨m, hm, -, j, rfl⟩ := h.only m2 hm2
  have hp : ∀ b ∈ splitImports m.assignments m.imports, b.params = [] := fun b hb => by
    rcases mem_splitImports hb with hb | ⟨i, hi, n, hn, rfl⟩
    · exact h.plain.params m hm b hb
    · rfl
  rcases splitAssignments_bodies ha with ha | ⟨-, h1 | ⟨b, h1, h2⟩⟩
  · exact hp a ha
  · exact h1
  · rw [h2]; exact hp b h1

theorem SplitTree.classes {src S : Tree} (h : SplitTree src S) : ∀ m ∈ S.modules, ∀ a ∈ m.assignments, ∀ fs, a.body ≠ .objectClass fs := by
  intro m2 hm2 a ha fs hb
  obtain ⟨m, hm, -, j, rfl⟩ := h.only m2 hm2
  rcases splitAssignments_bodies ha with ha | ⟨⟨t, h1⟩, -⟩
  · rcases mem_splitImports ha with ha | ⟨i, hi, n, hn, rfl⟩
    · exact h.plain.classes m hm a ha fs hb
    · cases hb
  · rw [h1] at hb; cases hb

theorem parameters_plain {src : Tree} (h : PlainSource src) : resolveParameters src = .ok src := by
  rw [resolveParameters_unused]
  · congr 1
    obtain ⟨ms⟩ := src
    congr 1
    conv => rhs; rw [← List.map_id ms]
    refine List.map_congr_left fun m hm => ?_
    obtain ⟨mn, mt, mi, ma⟩ := m
    have e1 : ma.filter (fun a => a.params.isEmpty) = ma := List.filter_eq_self.2 fun a ha => by rw [h.params _ hm a ha]; rfl
    show Module.mk .. = _
    rw [e1]
    rfl
  · intro mod ref ps body ht hps
    unfold template at ht
    obtain ⟨m, hm, ht⟩ := Option.bind_eq_some_iff.1 ht
    obtain ⟨a, ha, ht⟩ := Option.bind_eq_some_iff.1 ht
    split at ht
    · cases ht
      exact absurd (h.params m (List.mem_of_find?_eq_some hm) a (List.mem_of_find?_eq_some ha)) hps
    · cases ht
  · intro m hm a ha _ t hb hs
    have key : ∀ u, Somewhere Parameterized u → Occurs src m u → False := by
      intro u hu ho
      have hpar : ∀ w, Occurs src m w → ¬ Parameterized w := by
        rintro w hw ⟨q, ref, ps, rfl, hne⟩
        exact hne (h.arguments m q ref ps hw)
      rcases hu with hu | ⟨w, hin, hw⟩
      · exact hpar u ho hu
      · refine hpar w ?_ hw
        clear hw
        induction hin with
        | single hc => exact occurs_child ho hc
        | tail _ hc ih => exact occurs_child ih hc
    exact key t hs (.assigned hm ha hb)

/-- What the front end makes of a plain source. -/
theorem frontEnd_plain {src out : Tree} {rf : Nat} (h : PlainSource src) (hf : frontEnd rf src = .ok out) :
    ∃ S, SplitTree src S ∧ StoredTree S out := by
  unfold frontEnd at hf
  rw [parameters_plain h, Res.ok_bind] at hf
  obtain ⟨ms, h1, hf⟩ := Res.bind_eq_ok.1 hf
  obtain ⟨ms2, h2, hf⟩ := Res.bind_eq_ok.1 hf
  obtain ⟨T3, h3, hf⟩ := Res.bind_eq_ok.1 hf
  obtain ⟨T4, h4, hf⟩ := Res.bind_eq_ok.1 hf
  obtain ⟨ms5, h5, hf⟩ := Res.bind_eq_ok.1 hf
  cases hf
  obtain ⟨hperm, -⟩ := reorderModules_ok (pairwise_nodup.2 h.modules) h1
  have hsp := splitLoop_ok h2
  have hmods : ms2.Pairwise fun a b => a.name ≠ b.name := by
    rw [← pairwise_nodup]
    rw [pointwise_key hsp (key := Module.name) (key' := Module.name) (fun a b hab => by obtain ⟨-, j, rfl⟩ := hab; rfl)]
    exact (hperm.map Module.name).nodup_iff.2 (pairwise_nodup.2 h.modules)
  have hS : SplitTree src ⟨ms2⟩ := {
    plain := h
    modules := hmods
    split := fun m hm => pointwise_left hsp (hperm.mem_iff.2 hm)
    only := fun m' hm' => by
      obtain ⟨m, hm, hr⟩ := pointwise_right hsp hm'
      exact ⟨m, hperm.mem_iff.1 hm, hr⟩ }
  rw [resolveComponentsOf_plain] at h3
  · cases h3
    have := resolveObjectClasses_plain hS.classes hS.params (fun m q c fs ho => by
      obtain ⟨-, m', -, -, -, -, hc⟩ := hS.occurs ho
      exact hc.noObject h q c fs rfl) h4
    subst this
    obtain ⟨out', hout, hst⟩ := reorderLoop_ok h5
    rw [List.nil_append] at hout
    subst hout
    refine ⟨_, hS, hS.distinct, ?_, fun m hm => pointwise_left hst hm, fun m' hm' => pointwise_right hst hm'⟩
    rw [← pairwise_nodup]
    rw [pointwise_key hst (key := Module.name) (key' := Module.name) (fun a b hab => by obtain ⟨as, rfl, -⟩ := hab; rfl)]
    exact pairwise_nodup.2 hmods
  · intro m hm a ha t hb
    obtain ⟨-, m', -, -, -, -, hc⟩ := hS.occurs (.assigned hm ha hb)
    exact hc.noComponentsOf h

end FastBer.Ast
