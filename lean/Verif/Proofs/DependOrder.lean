import Verif.Proofs.DependFail
import Verif.Proofs.Identifier
/-! Consequences for whole runs of `reorderAssignments`. -/
namespace FastBer.Ast
open Spec

/-! ## The bound on `resolve_type` does not matter -/

theorem Res.le_trans {α : Type} {a b c : Res α} (h : a.le b) (h' : b.le c) : a.le c := by
  rcases h with h | h
  · exact .inl h
  · rw [h]; exact h'

theorem Res.le_foldlM {α β : Type} {f f' : β → α → Res β} (l : List α) (h : ∀ b a, (f b a).le (f' b a)) :
    ∀ b, (l.foldlM f b).le (l.foldlM f' b) := by
  induction l with
  | nil => intro b; exact .inr rfl
  | cons a l ih =>
    intro b
    rw [List.foldlM_cons, List.foldlM_cons]
    exact Res.le_bind (h b a) ih

theorem resolveType_le (tree : Tree) (cur : Name) (n : Name) (rf : Nat) (t : AType) :
    (resolveType tree cur rf n t).le (resolveType tree cur (rf + 1) n t) := by
  fun_induction resolveType tree cur rf n t with
  | case1 m ref ps =>
    rw [resolveType]
    have : ∀ f module m ref, (resolveDefined tree cur f module m ref).le (resolveDefined tree cur (f + 1) module m ref) := by
      intro f
      induction f with
      | zero => intro _ _ _; exact .inl rfl
      | succ f ih =>
        intro module m ref
        rw [resolveDefined, resolveDefined]
        refine Res.le_bind (Res.le_refl _) fun wm => Res.le_bind (Res.le_refl _) fun a => ?_
        split
        · exact ih _ _ _
        · exact Res.le_bind (ih _ _ _) fun _ => Res.le_refl _
        · exact Res.le_refl _
        · exact Res.le_refl _
    exact this _ _ _ _
  | case2 c k m t ih => rw [resolveType]; exact ih
  | case3 t h1 h2 => 
    rw [resolveType]
    · exact Res.le_refl _
    · exact h1
    · exact h2

theorem followAll_le {rec rec' : Name → DepState → Res DepState} (h : ∀ n s, (rec n s).le (rec' n s)) (ns : List Name) (s : DepState) :
    (followAll rec ns s).le (followAll rec' ns s) := Res.le_foldlM _ (fun _ _ => h _ _) _

theorem followDefault_le {tree : Tree} {own : Name} {rf : Nat} {rec rec' : Name → DepState → Res DepState}
    (h : ∀ n s, (rec n s).le (rec' n s)) (c : Comp) (v : Value) (s : DepState) :
    (followDefault tree own rf rec c v s).le (followDefault tree own (rf + 1) rec' c v s) := by
  cases v <;> try exact .inr rfl
  rename_i ref
  refine Res.le_bind (resolveType_le ..) fun r => ?_
  split
  · exact Res.le_refl _
  · exact h _ _

theorem followComp_le {as : List Assignment} {tree : Tree} {own : Name} {rf : Nat} {rec rec' : Name → DepState → Res DepState}
    (h : ∀ n s, (rec n s).le (rec' n s)) (name : Name) (c : Comp) (s : DepState) :
    (followComp as tree own rf rec name c s).le (followComp as tree own (rf + 1) rec' name c s) := by
  unfold followComp
  cases c.default with
  | some v =>
    exact Res.le_bind (followAll_le h _ _) fun _ => Res.le_bind (followDefault_le h _ _ _) fun _ => Res.le_refl _
  | none =>
    dsimp only
    split
    · refine Res.le_bind (Res.le_refl _) fun b => ?_
      split
      · exact Res.le_refl _
      · exact Res.le_bind (followAll_le h _ _) fun _ => Res.le_refl _
    · exact Res.le_bind (followAll_le h _ _) fun _ => Res.le_refl _

theorem followComps_le {as : List Assignment} {tree : Tree} {own : Name} {rf : Nat} {rec rec' : Name → DepState → Res DepState}
    (h : ∀ n s, (rec n s).le (rec' n s)) (name : Name) (cs : List Comp) : ∀ s : DepState,
    (followComps as tree own rf rec name cs s).le (followComps as tree own (rf + 1) rec' name cs s) := by
  induction cs with
  | nil => intro s; exact .inr rfl
  | cons c cs ih =>
    intro s
    rw [followComps, followComps]
    exact Res.le_bind (followComp_le h _ _ _) fun _ => Res.le_bind (ih _) fun _ => Res.le_refl _

theorem followAssignment_le {as : List Assignment} {tree : Tree} {own : Name} {rf : Nat} {rec rec' : Name → DepState → Res DepState}
    (h : ∀ n s, (rec n s).le (rec' n s)) (a : Assignment) (s : DepState) :
    (followAssignment as tree own rf rec a s).le (followAssignment as tree own (rf + 1) rec' a s) := by
  have hb : ∀ dyn, (followBreakable as own rec a dyn s).le (followBreakable as own rec' a dyn s) := by
    intro dyn
    unfold followBreakable
    refine Res.le_bind (Res.le_refl _) fun b => ?_
    split
    · exact Res.le_refl _
    · exact Res.le_bind (followAll_le h _ _) fun _ => Res.le_refl _
  unfold followAssignment
  split
  · exact hb _
  · exact hb _
  · exact hb _
  · exact Res.le_bind (followComps_le h _ _ _) fun _ => Res.le_refl _
  · exact Res.le_bind (followComps_le h _ _ _) fun _ => Res.le_refl _
  · exact Res.le_bind (followAll_le h _ _) fun _ => Res.le_refl _

theorem resolveDeps_le {as : List Assignment} {tree : Tree} {own : Name} {rf : Nat} : ∀ fuel n s,
    (resolveDeps as tree own rf fuel n s).le (resolveDeps as tree own (rf + 1) fuel n s) := by
  intro fuel
  induction fuel with
  | zero => intro n s; exact .inl rfl
  | succ fuel ih =>
    intro n s
    rw [resolveDeps, resolveDeps]
    split
    · exact Res.le_refl _
    · split
      · exact Res.le_refl _
      · split
        · exact Res.le_refl _
        · exact Res.le_bind (followAssignment_le ih _ _) fun _ => Res.le_refl _

theorem reorderAssignments_le {tree : Tree} {own : Name} {as : List Assignment} {rf rf' : Nat} (h : rf ≤ rf') :
    (reorderAssignments tree own rf as).le (reorderAssignments tree own rf' as) := by
  induction h with
  | refl => exact Res.le_refl _
  | step _ ih =>
    refine Res.le_trans ih ?_
    unfold reorderAssignments
    exact Res.le_bind (Res.le_foldlM _ (fun _ _ => resolveDeps_le _ _ _) _) fun _ => Res.le_refl _

/-! ## Storage modes -/

theorem forgetAlts_map (alts : List Named) : forgetAlts (alts.map markAlt) = forgetAlts alts := by
  have hof : ∀ t, forget (markOf t) = forget t := by
    intro t; cases t <;> rfl
  induction alts with
  | nil => rfl
  | cons a alts ih =>
    obtain ⟨n, t⟩ := a
    rw [List.map_cons]
    cases t <;> simp only [markAlt, forgetAlts, ih, hof, forget]

theorem MarkedComps.forget {circ : Comp → Prop} {cs cs' : List Comp} (h : MarkedComps circ cs cs') :
    forgetComps cs' = forgetComps cs := by
  induction h with
  | nil => rfl
  | @keep c _ _ _ ih => cases c; rw [forgetComps, forgetComps, ih]
  | @mark c _ _ _ _ _ _ ih => cases c; rw [markComp, forgetComps, forgetComps, ih]

theorem MarkedComps.cases {circ : Comp → Prop} {cs cs' : List Comp} (h : MarkedComps circ cs cs') :
    cs' = cs ∨ ∃ c ∈ cs, c.optional = true ∧ circ c := by
  induction h with
  | nil => exact .inl rfl
  | keep _ ih =>
    rcases ih with rfl | ⟨c, h1, h2⟩
    · exact .inl rfl
    · exact .inr ⟨c, by simp [h1], h2⟩
  | @mark c _ _ h1 _ h3 => exact .inr ⟨c, by simp, h1, h3⟩

theorem Marked.forget {own : Name} {as : List Assignment} {a a' : Assignment} (h : Marked own as a a') : forgetA a' = forgetA a := by
  cases h with
  | same => rfl
  | choice hb => unfold forgetA; rw [hb]; dsimp only; rw [Spec.forget, Spec.forget, forgetAlts_map]
  | setOf hb => unfold forgetA; rw [hb]; rfl
  | seqOf hb => unfold forgetA; rw [hb]; rfl
  | sequence hb hm => unfold forgetA; rw [hb]; dsimp only; rw [Spec.forget, Spec.forget, hm.forget]
  | set hb hm => unfold forgetA; rw [hb]; dsimp only; rw [Spec.forget, Spec.forget, hm.forget]

theorem forgetA_name (a : Assignment) : (forgetA a).name = a.name := by
  unfold forgetA; split <;> rfl

/-! ## Permutation -/

theorem perm_of_nodup_subset {α : Type} : ∀ (l₁ l₂ : List α), l₁.Nodup → (∀ x ∈ l₁, x ∈ l₂) → l₂.length ≤ l₁.length → l₁.Perm l₂
  | [], l₂, _, _, h => by
    have : l₂ = [] := List.eq_nil_of_length_eq_zero (Nat.le_zero.1 h)
    subst this; exact .nil
  | a :: l₁, l₂, hn, hs, hl => by
    obtain ⟨p, q, rfl⟩ := List.append_of_mem (hs a (by simp))
    rw [List.nodup_cons] at hn
    refine .trans (.cons a (perm_of_nodup_subset l₁ (p ++ q) hn.2 (fun x hx => ?_) ?_)) List.perm_middle.symm
    · have := hs x (by simp [hx])
      simp only [List.mem_append, List.mem_cons] at this ⊢
      rcases this with h | rfl | h
      · exact .inl h
      · exact absurd hx hn.1
      · exact .inr h
    · simp only [List.length_append, List.length_cons] at hl ⊢
      omega

theorem reorder_nodup {tree : Tree} {own : Name} {rf : Nat} {as out : List Assignment}
    (h : reorderAssignments tree own rf as = .ok out) : (as.map (·.name)).Nodup := by
  obtain ⟨h1, h2, h3, _⟩ := reorderAssignments_ok h
  exact (perm_of_nodup_subset _ _ h2 (fun x hx => (h1 x).1 hx) (by simp [h3])).nodup_iff.1 h2

theorem reorder_perm {tree : Tree} {own : Name} {rf : Nat} {as out : List Assignment}
    (h : reorderAssignments tree own rf as = .ok out) : (out.map forgetA).Perm (as.map forgetA) := by
  obtain ⟨h1, h2, h3, _, h5⟩ := reorderAssignments_ok h
  refine perm_of_nodup_subset _ _ ?_ ?_ (by simp [h3])
  · have e : (out.map forgetA).map (·.name) = out.map (·.name) := by
      rw [List.map_map]; exact List.map_congr_left fun a _ => forgetA_name a
    rw [← e] at h2
    exact (List.pairwise_map.1 h2).imp fun hab e => hab (by rw [e])
  · intro x hx
    obtain ⟨a', ha', rfl⟩ := List.mem_map.1 hx
    obtain ⟨a, k1, k2, _⟩ := h5 a' ha'
    exact List.mem_map.2 ⟨a, (findLastAssignment_some k1).1, k2.forget.symm⟩

/-! ## Cycles -/

/-- What is before an entry is before it, along chains too. -/
theorem before_chain {r : Name → Name → Prop} {out : List Assignment}
    (h : ∀ pre a post, out = pre ++ a :: post → ∀ n, r a.name n → ∃ b ∈ pre, b.name = n) {u v : Name}
    (ht : Relation.TransGen r u v) : ∀ pre a post, out = pre ++ a :: post → a.name = u → ∃ b ∈ pre, b.name = v := by
  induction ht with
  | single hr => intro pre a post e hn; subst hn; exact h pre a post e _ hr
  | tail _ hr ih =>
    intro pre a post e hn
    obtain ⟨b, hb, hbn⟩ := ih pre a post e hn
    obtain ⟨p, q, rfl⟩ := List.append_of_mem hb
    subst hbn
    obtain ⟨c, hc, hcn⟩ := h p b (q ++ a :: post) (by rw [e]; simp) _ hr
    exact ⟨c, by simp [hc], hcn⟩

theorem _root_.FastBer.Ast.Spec.HardUse.of_mem {tree : Tree} {own : Name} {as : List Assignment} {u v : Name} (h : HardUse tree own as u v) :
    ∃ a ∈ as, a.name = u ∧ HardUse tree own [a] a.name v := by
  cases h with
  | component h1 h2 h3 h4 h5 => exact ⟨_, h1, rfl, .component (by simp) h2 h3 h4 h5⟩
  | default h1 h2 h3 h4 h5 => exact ⟨_, h1, rfl, .default (by simp) h2 h3 h4 h5⟩
  | other h1 h2 h3 h4 => exact ⟨_, h1, rfl, .other (by simp) h2 h3 h4⟩

theorem reorder_no_cycle {tree : Tree} {own : Name} {rf : Nat} {as out : List Assignment} (hs : NoInnerSetDefaults as)
    (h : reorderAssignments tree own rf as = .ok out) : ¬ IllegalCycle tree own as := by
  rintro ⟨n, hn⟩
  obtain ⟨h1, h2, h3, h4, h5⟩ := reorderAssignments_ok h
  have hnd := reorder_nodup h
  have hb : ∀ pre a post, out = pre ++ a :: post → ∀ m, HardUse tree own as a.name m → ∃ b ∈ pre, b.name = m := by
    intro pre a post e m hm
    refine h4 hs pre a post e m (.inr ?_)
    obtain ⟨b, hb, hbn, hu⟩ := hm.of_mem
    exact ⟨b, by rw [← hbn]; exact findLastAssignment_of_mem hnd hb, hu⟩
  have hmem : n ∈ out.map (·.name) := by
    rw [h1]
    have : ∀ {u v}, Relation.TransGen (HardUse tree own as) u v → u ∈ as.map (·.name) := by
      intro u v ht
      induction ht with
      | single hr => obtain ⟨b, hb, hbn, _⟩ := hr.of_mem; exact List.mem_map.2 ⟨b, hb, hbn⟩
      | tail _ _ ih => exact ih
    exact this hn
  obtain ⟨a, ha, han⟩ := List.mem_map.1 hmem
  obtain ⟨p, q, e⟩ := List.append_of_mem ha
  obtain ⟨b, hb', hbn⟩ := before_chain hb hn p a q e han
  rw [e, List.map_append, List.nodup_append] at h2
  exact h2.2.2 b.name (List.mem_map_of_mem hb') a.name (by simp) (by rw [hbn, han])

/-! ## References to types of the module itself -/

/-- A dependency is on a type referred to inside, or on a default value of the module itself. -/
theorem dep_inside : ∀ (t : AType) (d : Dep), d ∈ dependsOn t →
    d.module = none ∨ ∃ ps, t = .defined d.module d.name ps ∨ Inside t (.defined d.module d.name ps)
  | .leaf _, d, h => by simp [dependsOn] at h
  | .objField .., d, h => by simp [dependsOn] at h
  | .choice as s, d, h => by
    rw [dependsOn] at h
    obtain ⟨a, ha, hd⟩ := (mem_dependsOnAlts _).1 h
    have := List.sizeOf_lt_of_mem ha
    have : sizeOf a.type < sizeOf a := by cases a; simp [Named.type]; omega
    exact step (.choice ha) (dep_inside a.type d hd)
  | .sequence cs e, d, h => by
    rw [dependsOn] at h
    obtain ⟨c, hc, hd | hd⟩ := (mem_dependsOnSeq _).1 h
    · have := List.sizeOf_lt_of_mem hc
      have : sizeOf c.type < sizeOf c := by cases c; simp [Comp.type]; omega
      exact step (.sequence hc) (dep_inside c.type d hd)
    · have := mem_defaultDep.1 hd
      exact .inl this.2.1
  | .set cs e, d, h => by
    rw [dependsOn] at h
    obtain ⟨c, hc, hd⟩ := (mem_dependsOnSet _).1 h
    have := List.sizeOf_lt_of_mem hc
    have : sizeOf c.type < sizeOf c := by cases c; simp [Comp.type]; omega
    exact step (.set hc) (dep_inside c.type d hd)
  | .seqOf _ t _, d, h => by rw [dependsOn] at h; exact step .seqOf (dep_inside t d h)
  | .setOf _ t _, d, h => by rw [dependsOn] at h; exact step .setOf (dep_inside t d h)
  | .prefixed _ _ _ t, d, h => by rw [dependsOn] at h; exact step .prefixed (dep_inside t d h)
  | .defined m ref ps, d, h => by
    simp only [dependsOn, List.mem_singleton] at h
    subst h
    exact .inr ⟨ps, .inl rfl⟩
termination_by t => sizeOf t
where
  step {t u : AType} {d : Dep} (hc : Child t u)
      (h : d.module = none ∨ ∃ ps, u = .defined d.module d.name ps ∨ Inside u (.defined d.module d.name ps)) :
      d.module = none ∨ ∃ ps, t = .defined d.module d.name ps ∨ Inside t (.defined d.module d.name ps) := by
    rcases h with h | ⟨ps, rfl | h⟩
    · exact .inl h
    · exact .inr ⟨ps, .inr (.single hc)⟩
    · exact .inr ⟨ps, .inr (Relation.TransGen.trans (.single hc) h)⟩

theorem dep_local {own : Name} {as : List Assignment} (h : LocalComponents own as) {a : Assignment} (ha : a ∈ as)
    {cs : List Comp} (hcs : components a.body = some cs) {c : Comp} (hc : c ∈ cs) {d : Dep} (hd : d ∈ dependsOn c.type) :
    d.isLocal own = true := by
  have : d.module = none ∨ d.module = some own := by
    rcases dep_inside _ _ hd with h' | ⟨ps, h'⟩
    · exact .inl h'
    · exact h a ha cs hcs c hc _ _ ps h'
  simpa [Dep.isLocal] using this

theorem homely {own : Name} {as : List Assignment} (h : LocalComponents own as) (h' : NoSetDefaults as) : Homely own as :=
  fun a ha => ⟨fun _ hcs _ hc _ hd => dep_local h ha hcs hc hd,
    fun cs e hb c hc v hd => h' a ha _ hb ⟨cs, e, rfl, c, hc, v, hd⟩⟩

theorem edge_mentioned {own : Name} {as : List Assignment} {u v : Name} (h : Edge own (initState as).deps u v) :
    MentionedBy own as u v := by
  obtain ⟨d, hd, hl, rfl⟩ := h
  obtain ⟨a, ha, hn, _, hda⟩ := initState_deps hd
  exact ⟨a, ha, hn, mentions_of_dep hda hl⟩

theorem Marked.cycle {own : Name} {as : List Assignment} {a a' : Assignment} (hl : LocalComponents own as) (ha : a ∈ as)
    (h : Marked own as a a') : a' = a ∨ Relation.TransGen (MentionedBy own as) a.name a.name := by
  have comps : ∀ cs cs', components a.body = some cs → MarkedComps (fun c => Circ own as a.name (some c)) cs cs' →
      cs' = cs ∨ Relation.TransGen (MentionedBy own as) a.name a.name := by
    intro cs cs' hb hm
    rcases hm.cases with h | ⟨c, hc, _, d, hd, ht⟩
    · exact .inl h
    · refine .inr (Relation.TransGen.trans (.single ⟨a, ha, rfl, ?_⟩) (transGen_mono (fun _ _ => edge_mentioned) ht))
      exact mentions_of_dep (comp_dep hb hc hd) (dep_local hl ha hb hc hd)
  cases h with
  | same => exact .inl rfl
  | choice _ hc => exact .inr (transGen_mono (fun _ _ => edge_mentioned) hc)
  | setOf _ hc => exact .inr (transGen_mono (fun _ _ => edge_mentioned) hc)
  | seqOf _ hc => exact .inr (transGen_mono (fun _ _ => edge_mentioned) hc)
  | sequence hb hm =>
    rcases comps _ _ (by rw [hb]; rfl) hm with rfl | h
    · rw [← hb]; exact .inl rfl
    · exact .inr h
  | set hb hm =>
    rcases comps _ _ (by rw [hb]; rfl) hm with rfl | h
    · rw [← hb]; exact .inl rfl
    · exact .inr h

/-- What is followed is mentioned, or is the default of a component of a SET. -/
theorem Followed.mentioned {tree : Tree} {own : Name} {as : List Assignment} {a : Assignment} (ha : a ∈ as)
    (hl : LocalComponents own as) {n : Name} (h : Followed tree own a n) : Mentions own a.body n := by
  cases h with
  | dependency hd hl => exact mentions_of_dep hd hl
  | component hcs hc hd => exact mentions_of_dep (comp_dep hcs hc hd) (dep_local hl ha hcs hc hd)
  | default hcs hc hd he =>
    rcases components_cases hcs with ⟨e, hb⟩ | ⟨e, hb⟩
    · rw [hb]; exact .type (.sequenceDefault hc hd fun h => he (.inl h))
    · rw [hb]; exact .type (.setDefault hc hd fun h => he (.inl h))

end FastBer.Ast
