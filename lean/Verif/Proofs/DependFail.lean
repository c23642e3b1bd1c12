import Verif.Proofs.Depend
/-! Why `resolveDeps` and `reorderAssignments` fail. -/
namespace FastBer.Ast
open Spec

/-- How a computation ended if not normally. -/
inductive Fail where
  | throw (e : Err)
  | ub
  | loop
  deriving DecidableEq

/-- The failure, if there is one. -/
def Res.fails {α : Type} : Res α → Option Fail
  | .ok _ => none
  | .throw e => some (.throw e)
  | .ub => some .ub
  | .loop => some .loop

theorem Res.fails_bind {α β : Type} {x : Res α} {f : α → Res β} {z : Fail} (h : (x >>= f).fails = some z) :
    x.fails = some z ∨ ∃ a, x = .ok a ∧ (f a).fails = some z := by
  cases x with
  | ok a => exact .inr ⟨a, rfl, h⟩
  | throw e => exact .inl h
  | ub => exact .inl h
  | loop => exact .inl h

/-! ## `isCircular` -/

/-- How many of `U` are not in `F`. -/
def left (U F : List Dep) : Nat := U.countP fun d => !F.contains d

theorem left_mono {U F F' : List Dep} (h : ∀ d ∈ F, d ∈ F') : left U F' ≤ left U F := by
  apply List.countP_mono_left
  intro n _ hn
  simp only [List.contains_eq_mem, Bool.not_eq_eq_eq_not, Bool.not_true, decide_eq_false_iff_not] at *
  exact fun h' => hn (h n h')

theorem left_lt {U F : List Dep} {d : Dep} (h : d ∈ U) (hd : d ∉ F) : left U (d :: F) < left U F := by
  induction U with
  | nil => cases h
  | cons a U ih =>
    have hm : left U (d :: F) ≤ left U F := left_mono fun m hm => List.mem_cons_of_mem _ hm
    simp only [left, List.countP_cons, List.contains_eq_mem, List.mem_cons] at *
    by_cases e : a = d
    · subst e
      simp only [true_or, decide_true, Bool.not_true, Bool.false_eq_true, if_false, hd, decide_false,
        Bool.not_false, if_true]
      omega
    · have : d ∈ U := by simpa [Ne.symm e] using h
      have := ih this
      simp only [e, false_or]; omega

theorem depsRec_fails {as : List Assignment} {own : Name} {deps : Name → List Dep} {U : List Dep}
    (hU : ∀ n d, d ∈ deps n → d ∈ U) : ∀ fuel n found z, left U found < fuel →
    (depsRec as own deps fuel n found).fails = some z →
    z = .throw .undefinedType ∧ ∃ m, findLastAssignment as m = none ∧ (m = n ∨ ∃ u, Edge own deps u m) := by
  intro fuel
  induction fuel with
  | zero => intro n found z h; omega
  | succ fuel ih =>
    intro n found z hf h
    rw [depsRec_succ] at h
    cases hl : findLastAssignment as n with
    | none =>
      rw [hl] at h
      cases h
      exact ⟨rfl, n, hl, .inl rfl⟩
    | some a =>
      rw [hl] at h
      dsimp only at h
      have key : ∀ (l : List Dep) F, (∀ d ∈ l, d ∈ deps n) → left U F < fuel + 1 →
          (l.foldlM (depStep as own deps fuel) F).fails = some z →
          z = .throw .undefinedType ∧ ∃ m, findLastAssignment as m = none ∧ (m = n ∨ ∃ u, Edge own deps u m) := by
        intro l
        induction l with
        | nil => intro F _ _ h; cases h
        | cons d l ihl =>
          intro F hm hF h
          rw [List.foldlM_cons] at h
          rcases Res.fails_bind h with h | ⟨G, h1, h2⟩
          · unfold depStep at h
            split at h
            · rename_i hloc
              split at h
              · cases h
              · rename_i hc
                have hlt := left_lt (F := F) (hU n d (hm d (by simp))) (by simpa using hc)
                obtain ⟨k1, m, k2, k3⟩ := ih _ _ _ (by omega) h
                refine ⟨k1, m, k2, .inr ?_⟩
                rcases k3 with rfl | k3
                · exact ⟨n, d, hm d (by simp), hloc, rfl⟩
                · exact k3
            · cases h
          · refine ihl G (fun x hx => hm x (by simp [hx])) ?_ h2
            refine Nat.lt_of_le_of_lt (left_mono ?_) hF
            unfold depStep at h1
            split at h1
            · split at h1
              · cases h1; exact fun _ h => h
              · exact fun x hx => (depsRec_ok _ _ _ _ _ _ _ h1).1 x (by simp [hx])
            · cases h1; exact fun _ h => h
      exact key _ _ (fun _ h => h) hf h

theorem initState_deps {as : List Assignment} {n : Name} {d : Dep} (h : d ∈ (initState as).deps n) :
    ∃ a ∈ as, a.name = n ∧ findLastAssignment as n = some a ∧ d ∈ dependencies a := by
  simp only [initState] at h
  split at h
  · rename_i a ha
    exact ⟨a, (findLastAssignment_some ha).1, (findLastAssignment_some ha).2, ha, h⟩
  · cases h

theorem isCircular_fails {as : List Assignment} {own : Name} {deps : Name → List Dep}
    (hsub : ∀ n d, d ∈ deps n → d ∈ (initState as).deps n) {name : Name} {ds : List Name} {z : Fail}
    (h : (isCircular as own deps name ds).fails = some z) :
    z = .throw .undefinedType ∧ ∃ m, findLastAssignment as m = none ∧ (m ∈ ds ∨ ∃ u, Edge own deps u m) := by
  unfold isCircular at h
  rcases Res.fails_bind h with h | ⟨_, _, h⟩
  · have hU : ∀ n d, d ∈ deps n → d ∈ as.flatMap dependencies := by
      intro n d hd
      obtain ⟨a, ha, _, _, hda⟩ := initState_deps (hsub n d hd)
      exact List.mem_flatMap.2 ⟨a, ha, hda⟩
    have key : ∀ (l : List Name) F, (l.foldlM (fun found d => depsRec as own deps (depFuel as) d found) F).fails = some z →
        z = .throw .undefinedType ∧ ∃ m, findLastAssignment as m = none ∧ (m ∈ l ∨ ∃ u, Edge own deps u m) := by
      intro l
      induction l with
      | nil => intro F h; cases h
      | cons d l ih =>
        intro F h
        rw [List.foldlM_cons] at h
        rcases Res.fails_bind h with h | ⟨G, _, h⟩
        · obtain ⟨k1, m, k2, k3⟩ := depsRec_fails hU _ _ _ _ (Nat.lt_succ_of_le List.countP_le_length) h
          exact ⟨k1, m, k2, k3.imp (fun e => by simp [e]) id⟩
        · obtain ⟨k1, m, k2, k3⟩ := ih G h
          exact ⟨k1, m, k2, k3.imp (fun e => by simp [e]) id⟩
    exact key ds [] h
  · cases h

/-! ## Why a call fails -/

/-- A name the pass looks up when it deals with an assignment. -/
inductive Followed (tree : Tree) (own : Name) (a : Assignment) : Name → Prop where
  | dependency {d : Dep} : d ∈ dependencies a → d.isLocal own = true → Followed tree own a d.name
  | component {cs : List Comp} {c : Comp} {d : Dep} : components a.body = some cs → c ∈ cs → d ∈ dependsOn c.type →
      Followed tree own a d.name
  | default {cs : List Comp} {c : Comp} {v : Name} : components a.body = some cs → c ∈ cs → c.default = some (.defined v) →
      ¬ EnumType tree own c.type → Followed tree own a v

/-- All references in components are to types of the module itself, and no component of a SET definition has a default that is
a name. -/
def Homely (own : Name) (as : List Assignment) : Prop := ∀ a ∈ as,
  (∀ cs, components a.body = some cs → ∀ c ∈ cs, ∀ d ∈ dependsOn c.type, d.isLocal own = true) ∧
  (∀ cs e, a.body = .type (.set cs e) → ∀ c ∈ cs, ∀ v, c.default ≠ some (.defined v))

/-- Reasons for failure `z`. -/
def Why (tree : Tree) (own : Name) (rf : Nat) (as : List Assignment) (z : Fail) : Prop :=
  (∃ a ∈ as, ∃ cs, components a.body = some cs ∧ ∃ c ∈ cs, ∃ v, c.default = some (.defined v) ∧
    (resolveType tree own rf c.name c.type).fails = some z) ∨
  (z = .throw .undefinedType ∧ ∃ a ∈ as, ∃ n, Followed tree own a n ∧ findLastAssignment as n = none) ∨
  (z = .throw .circular ∧ (Homely own as → IllegalCycle tree own as))

/-- The definitions being dealt with. -/
def Open (s : DepState) (n : Name) : Prop := n ∈ s.visited ∧ n ∉ s.assigned

/-- An edge that leaves a definition being dealt with. -/
def OpenEdge (own : Name) (as : List Assignment) (s : DepState) (u v : Name) : Prop := Open s u ∧ Edge own (initState as).deps u v

/-- Every definition being dealt with leads to `n`, by edges none of which can be broken, or `n` does not lead back to it. -/
def Stack (tree : Tree) (own : Name) (as : List Assignment) (s : DepState) (n : Name) : Prop := Homely own as →
  ∀ x, Open s x → Relation.TransGen (OpenEdge own as s) x n ∧
    (Relation.TransGen (HardUse tree own as) x n ∨ ¬ Relation.TransGen (Edge own s.deps) n x)

/-- An edge from `u` that may be followed in state `s`. -/
def MayFollow (tree : Tree) (own : Name) (as : List Assignment) (s : DepState) (u v : Name) : Prop := Homely own as →
  Edge own (initState as).deps u v ∧ (HardUse tree own as u v ∨ ¬ Relation.TransGen (Edge own s.deps) v u)

theorem DStep.open_iff {as : List Assignment} {tree : Tree} {own : Name} {s t : DepState} {add : List Assignment}
    (h : DStep as tree own s t add) (_hi : DInv as s) (n : Name) : Open t n ↔ Open s n := by
  unfold Open
  rw [h.visited, h.assigned]
  constructor
  · rintro ⟨h1 | h1, h2⟩
    · exact ⟨h1, fun h => h2 (.inl h)⟩
    · exact absurd (.inr h1) h2
  · rintro ⟨h1, h2⟩
    refine ⟨.inl h1, ?_⟩
    rintro (h3 | h3)
    · exact h2 h3
    · exact h.fresh n h3 h1

/-- The invariant on the way down. -/
theorem Stack.next {tree : Tree} {own : Name} {as : List Assignment} {s t : DepState} {u v : Name}
    (h : Stack tree own as s u) (hi : DInv as t) (hu : u ∉ s.visited)
    (ho : ∀ n, Open t n ↔ n = u ∨ Open s n) (hsub : ∀ n d, d ∈ t.deps n → d ∈ s.deps n)
    (he : MayFollow tree own as t u v) : Stack tree own as t v := by
  intro hh x hx
  obtain ⟨he1, he2⟩ := he hh
  have hopen : ∀ a b, OpenEdge own as t a b → Edge own t.deps a b := by
    intro a b hab
    obtain ⟨d, h1, h2⟩ := hab.2
    exact ⟨d, by rw [hi.deps a hab.1.2]; exact h1, h2⟩
  have huo : Open t u := (ho u).2 (.inl rfl)
  have euv : OpenEdge own as t u v := ⟨huo, he1⟩
  rcases (ho x).1 hx with rfl | hx'
  · refine ⟨.single euv, ?_⟩
    rcases he2 with h | h
    · exact .inl (.single h)
    · exact .inr h
  · obtain ⟨k1, k2⟩ := h hh x hx'
    have k1' : Relation.TransGen (OpenEdge own as t) x u := by
      refine transGen_mono (fun a b hab => ⟨(ho a).2 (.inr hab.1), hab.2⟩) k1
    refine ⟨.tail k1' euv, ?_⟩
    rcases k2 with k2 | k2
    · rcases he2 with h | h
      · exact .inl (.tail k2 h)
      · refine .inr fun hv => h ?_
        exact Relation.TransGen.trans hv (transGen_mono hopen k1')
    · refine .inr fun hv => k2 ?_
      have : Relation.TransGen (Edge own t.deps) u x := Relation.TransGen.trans (.single (hopen _ _ euv)) hv
      exact transGen_mono (fun _ _ => Edge.mono hsub) this

/-- The recursive call fails only for a reason. -/
def RecFails (tree : Tree) (own : Name) (rf : Nat) (as : List Assignment) (u : Name) (s : DepState)
    (rec : Name → DepState → Res DepState) : Prop :=
  ∀ n t add z, DStep as tree own s t add → DInv as t → MayFollow tree own as t u n →
    (findLastAssignment as n = none → ∃ a ∈ as, Followed tree own a n) → (rec n t).fails = some z → Why tree own rf as z

theorem MayFollow.mono {tree : Tree} {own : Name} {as : List Assignment} {s t : DepState} {u v : Name}
    (h : MayFollow tree own as s u v) (hsub : ∀ n d, d ∈ t.deps n → d ∈ s.deps n) : MayFollow tree own as t u v := by
  intro hh
  obtain ⟨h1, h2⟩ := h hh
  refine ⟨h1, h2.imp id fun h3 h4 => h3 (transGen_mono (fun _ _ => Edge.mono hsub) h4)⟩

theorem followAll_fails {tree : Tree} {own : Name} {rf : Nat} {as : List Assignment} {u : Name} {s : DepState}
    {rec : Name → DepState → Res DepState} (hok : RecOK as tree own rec) (hr : RecFails tree own rf as u s rec) {z : Fail} :
    ∀ (ns : List Name) t add, DStep as tree own s t add → DInv as t →
      (∀ n ∈ ns, MayFollow tree own as t u n ∧ (findLastAssignment as n = none → ∃ a ∈ as, Followed tree own a n)) →
      (followAll rec ns t).fails = some z → Why tree own rf as z := by
  intro ns
  induction ns with
  | nil => intro t add _ _ _ h; cases h
  | cons n ns ih =>
    intro t add hst hi hn h
    unfold followAll at h
    rw [List.foldlM_cons] at h
    rcases Res.fails_bind h with h | ⟨t', h1, h2⟩
    · exact hr n t add z hst hi (hn n (by simp)).1 (hn n (by simp)).2 h
    · obtain ⟨x, k1, _⟩ := hok n t t' hi h1
      exact ih t' (add ++ x) (hst.trans k1) (k1.inv hi)
        (fun m hm => ⟨(hn m (by simp [hm])).1.mono k1.sub, (hn m (by simp [hm])).2⟩) h2

theorem resolveDefined_standsFor {tree : Tree} {cur : Name} {k : Builtin} {mod ref n m' : Name} {l : AType}
    (h : StandsFor tree mod ref n l m') (hl : l = .leaf k) : ∀ fuel md m r, m.getD md = mod →
    resolveDefined tree cur fuel md m ref = .ok r → r.type = .leaf k := by
  have hbody : ∀ {md m ref wm a} {b : Body}, findModule tree (Option.getD m md) = .ok wm → findAssignment wm ref = .ok a →
      lookup tree (Option.getD m md) ref = some b → a.body = b := by
    intro md m ref wm a b h1 h2 h3
    unfold findModule at h1
    unfold findAssignment at h2
    unfold lookup at h3
    split at h1
    · rename_i m' hm
      cases h1
      rw [hm] at h3
      split at h2
      · rename_i a' ha
        cases h2
        simpa [ha] using h3
      · cases h2
    · cases h1
  induction h with
  | @here mod ref t hb hn =>
    intro fuel md m r e h
    subst e
    cases fuel with
    | zero => cases h
    | succ fuel =>
      rw [resolveDefined] at h
      obtain ⟨wm, h1, h⟩ := Res.bind_eq_ok.1 h
      obtain ⟨a, h2, h⟩ := Res.bind_eq_ok.1 h
      rw [hbody h1 h2 hb, hl] at h
      cases h
      rfl
  | @alias mod ref m0 r0 ps n m' t hb _ ih =>
    intro fuel md m r e h
    subst e
    cases fuel with
    | zero => cases h
    | succ fuel =>
      rw [resolveDefined] at h
      obtain ⟨wm, h1, h⟩ := Res.bind_eq_ok.1 h
      obtain ⟨a, h2, h⟩ := Res.bind_eq_ok.1 h
      rw [hbody h1 h2 hb] at h
      exact ih hl fuel _ m0 r rfl h
  | tagged => cases hl

/-- If a type stands for an ENUMERATED, `resolve_type` says so. -/
theorem resolveType_of_enum {tree : Tree} {own : Name} {rf : Nat} {n : Name} {r : Resolved} {t : AType}
    (h : resolveType tree own rf n t = .ok r) (he : EnumType tree own t) : r.type = .leaf .enumerated := by
  rcases he with rfl | ⟨nm, n', m, hs⟩
  · rw [resolveType] at h
    · obtain ⟨_, _, h⟩ := Res.bind_eq_ok.1 h
      cases h; rfl
    · simp
    · simp
  · fun_induction resolveType tree own rf n t with
    | case1 m0 ref ps =>
      generalize hl : AType.leaf .enumerated = l at hs
      cases hs with
      | reference h1 h2 =>
        simp only [untag, AType.defined.injEq] at h1
        obtain ⟨rfl, rfl, rfl⟩ := h1
        rw [← hl]
        exact resolveDefined_standsFor h2 hl.symm _ _ _ _ rfl h
      | itself h1 h2 => exact absurd rfl (h1 m0 ref ps)
    | case2 c k tm t ih =>
      refine ih h ?_
      generalize hl : AType.leaf .enumerated = l at hs
      cases hs with
      | reference h1 h2 => exact .reference (by rw [untag] at h1; exact h1) h2
      | itself h1 h2 =>
        rw [untag]
        exact .itself (by intro a b c; have := h1 a b c; rwa [untag] at this) h2
    | case3 t h1 h2 =>
      obtain ⟨m1, h3, h4⟩ := Res.bind_eq_ok.1 h
      cases h4
      have hu : untag t = t := by cases t <;> first | rfl | exact absurd rfl (h2 _ _ _ _)
      generalize hl : AType.leaf .enumerated = l at hs
      cases hs with
      | reference h5 _ => rw [hu] at h5; exact absurd h5 (h1 _ _ _)
      | itself h5 h6 => rw [hu] at hl ⊢

theorem components_cases {b : Body} {cs : List Comp} (h : components b = some cs) :
    (∃ e, b = .type (.sequence cs e)) ∨ ∃ e, b = .type (.set cs e) := by
  unfold components at h
  split at h
  · cases h; exact .inl ⟨_, rfl⟩
  · cases h; exact .inr ⟨_, rfl⟩
  · cases h

theorem comp_dep {a : Assignment} {cs : List Comp} {c : Comp} {d : Dep} (h : components a.body = some cs) (hc : c ∈ cs)
    (hd : d ∈ dependsOn c.type) : d ∈ dependencies a := by
  unfold dependencies
  rcases components_cases h with ⟨e, hb⟩ | ⟨e, hb⟩
  · rw [hb]; dsimp only; rw [dependsOn]; exact (mem_dependsOnSeq _).2 ⟨c, hc, .inl hd⟩
  · rw [hb]; dsimp only; rw [dependsOn]; exact (mem_dependsOnSet _).2 ⟨c, hc, hd⟩

theorem initState_deps_eq {as : List Assignment} {a : Assignment} (h : findLastAssignment as a.name = some a) :
    (initState as).deps a.name = dependencies a := by simp [initState, h]

theorem followComp_fails {tree : Tree} {own : Name} {rf : Nat} {as : List Assignment} {s : DepState}
    {rec : Name → DepState → Res DepState} (hok : RecOK as tree own rec) {a : Assignment}
    (ha : findLastAssignment as a.name = some a) (hr : RecFails tree own rf as a.name s rec) {z : Fail}
    {cs : List Comp} {c : Comp} (hcs : components a.body = some cs) (hc : c ∈ cs) {t : DepState} {add : List Assignment}
    (hst : DStep as tree own s t add) (hi : DInv as t)
    (h : (followComp as tree own rf rec a.name c t).fails = some z) : Why tree own rf as z := by
  have hmem := (findLastAssignment_some ha).1
  have hedge : Homely own as → ∀ d ∈ dependsOn c.type, Edge own (initState as).deps a.name d.name ∧ d.isLocal own = true := by
    intro hh d hd
    have hl := (hh a hmem).1 cs hcs c hc d hd
    exact ⟨⟨d, by rw [initState_deps_eq ha]; exact comp_dep hcs hc hd, hl, rfl⟩, hl⟩
  have hfol : ∀ d ∈ dependsOn c.type, ∃ a ∈ as, Followed tree own a d.name :=
    fun d hd => ⟨a, hmem, .component hcs hc hd⟩
  have hard : (c.optional = false ∨ c.default.isSome = true) → ∀ n ∈ (dependsOn c.type).map (·.name),
      MayFollow tree own as t a.name n ∧ (findLastAssignment as n = none → ∃ a ∈ as, Followed tree own a n) := by
    intro hcomp n hn
    obtain ⟨d, hd, rfl⟩ := List.mem_map.1 hn
    refine ⟨fun hh => ⟨(hedge hh d hd).1, .inl ?_⟩, fun _ => hfol d hd⟩
    exact .component hmem hcs hc hcomp (.type (uses_of_dep own _ d hd (hedge hh d hd).2))
  unfold followComp at h
  cases hd : c.default with
  | some v =>
    rw [hd] at h
    rcases Res.fails_bind h with h | ⟨t1, h1, h⟩
    · exact followAll_fails hok hr _ t add hst hi (hard (.inr (by rw [hd]; rfl))) h
    · obtain ⟨x, k1, _⟩ := followAll_ok hok _ _ _ hi h1
      rcases Res.fails_bind h with h | ⟨_, _, h⟩
      · unfold followDefault at h
        split at h
        · rename_i w _ _
          rcases Res.fails_bind h with h | ⟨r, hres, h⟩
          · exact .inl ⟨a, hmem, cs, hcs, c, hc, w, hd, h⟩
          · split at h
            · cases h
            · rename_i hne
              have hnenum : ¬ EnumType tree own c.type := fun he =>
                hne ((isEnumerated_iff _).2 (resolveType_of_enum hres he))
              refine hr w t1 (add ++ x) z (hst.trans k1) (k1.inv hi) ?_ (fun _ => ⟨a, hmem, .default hcs hc hd hnenum⟩) h
              intro hh
              refine ⟨?_, .inl (.default hmem hcs hc hd hnenum)⟩
              rcases components_cases hcs with ⟨e, hb⟩ | ⟨e, hb⟩
              · refine ⟨⟨w, none⟩, ?_, by simp [Dep.isLocal], rfl⟩
                rw [initState_deps_eq ha]
                unfold dependencies
                rw [hb]; dsimp only; rw [dependsOn]
                refine (mem_dependsOnSeq _).2 ⟨c, hc, .inr (mem_defaultDep.2 ⟨hd, rfl, fun he => hnenum (.inl he)⟩)⟩
              · exact absurd hd ((hh a hmem).2 cs e hb c hc w)
        · cases h
      · cases h
  | none =>
    rw [hd] at h
    dsimp only at h
    split at h
    · rcases Res.fails_bind h with h | ⟨b, hb, h⟩
      · obtain ⟨k1, m, k2, k3⟩ := isCircular_fails hi.sub h
        refine .inr (.inl ⟨k1, ?_⟩)
        rcases k3 with k3 | ⟨u, d, k3, k4, rfl⟩
        · obtain ⟨d, hd', rfl⟩ := List.mem_map.1 k3
          exact ⟨a, hmem, d.name, .component hcs hc hd', k2⟩
        · obtain ⟨b, hb, _, _, hbd⟩ := initState_deps (hi.sub _ _ k3)
          exact ⟨b, hb, d.name, .dependency hbd k4, k2⟩
      · split at h
        · cases h
        · rename_i hnb
          obtain ⟨k1, _, _⟩ := isCircular_ok hb
          rcases Res.fails_bind h with h | ⟨_, _, h⟩
          · refine followAll_fails hok hr _ t add hst hi (fun n hn => ?_) h
            obtain ⟨d, hd', rfl⟩ := List.mem_map.1 hn
            exact ⟨fun hh => ⟨(hedge hh d hd').1, .inr fun ht => hnb (k1.2 ⟨d.name, hn, ht⟩)⟩, fun _ => hfol d hd'⟩
          · cases h
    · rename_i ho
      rcases Res.fails_bind h with h | ⟨_, _, h⟩
      · exact followAll_fails hok hr _ t add hst hi (hard (.inl (by simpa using ho))) h
      · cases h

theorem followComps_fails {tree : Tree} {own : Name} {rf : Nat} {as : List Assignment} {s : DepState}
    {rec : Name → DepState → Res DepState} (hok : RecOK as tree own rec) {a : Assignment}
    (ha : findLastAssignment as a.name = some a) (hr : RecFails tree own rf as a.name s rec) {z : Fail}
    {cs : List Comp} (hcs : components a.body = some cs) : ∀ (l : List Comp), (∀ c ∈ l, c ∈ cs) →
    ∀ (t : DepState) (add : List Assignment), DStep as tree own s t add → DInv as t →
    (followComps as tree own rf rec a.name l t).fails = some z → Why tree own rf as z := by
  intro l
  induction l with
  | nil => intro _ t add _ _ h; cases h
  | cons c l ih =>
    intro hl t add hst hi h
    rw [followComps] at h
    rcases Res.fails_bind h with h | ⟨⟨c', t1⟩, h1, h⟩
    · exact followComp_fails hok ha hr hcs (hl c (by simp)) hst hi h
    · obtain ⟨x, k1, _⟩ := followComp_ok hok hi h1
      rcases Res.fails_bind h with h | ⟨_, _, h⟩
      · exact ih (fun b hb => hl b (by simp [hb])) t1 (add ++ x) (hst.trans k1) (k1.inv hi) h
      · cases h

theorem mem_localDeps {own : Name} {ds : List Dep} {n : Name} :
    n ∈ localDeps own ds ↔ ∃ d ∈ ds, d.isLocal own = true ∧ d.name = n := by
  unfold localDeps
  simp only [List.mem_map, List.mem_filter, and_assoc]

theorem mentions_of_dep {own : Name} {a : Assignment} {d : Dep} (hd : d ∈ dependencies a) (hl : d.isLocal own = true) :
    Mentions own a.body d.name := by
  unfold dependencies at hd
  split at hd
  · rename_i t hb; rw [hb]; exact .type (uses_of_dep own t d hd hl)
  · rename_i t v hb
    rw [hb]
    rcases List.mem_append.1 hd with hd | hd
    · exact .valueType (uses_of_dep own t d hd hl)
    · rw [List.mem_singleton] at hd
      subst hd
      exact .value
  · rename_i t v _ hb
    rw [hb]
    exact .valueType (uses_of_dep own t d hd hl)
  · cases hd

theorem followBreakable_fails {tree : Tree} {own : Name} {rf : Nat} {as : List Assignment} {s : DepState}
    {rec : Name → DepState → Res DepState} (hok : RecOK as tree own rec) {a : Assignment}
    (ha : findLastAssignment as a.name = some a) (hr : RecFails tree own rf as a.name s rec) {z : Fail} (hi : DInv as s)
    (hn : a.name ∉ s.assigned) {dyn : AType}
    (h : (followBreakable as own rec a dyn s).fails = some z) : Why tree own rf as z := by
  have hmem := (findLastAssignment_some ha).1
  unfold followBreakable at h
  rcases Res.fails_bind h with h | ⟨b, hb, h⟩
  · obtain ⟨k1, m, k2, k3⟩ := isCircular_fails hi.sub h
    refine .inr (.inl ⟨k1, ?_⟩)
    rcases k3 with k3 | ⟨u, d, k3, k4, rfl⟩
    · rw [List.mem_singleton] at k3
      subst k3
      rw [ha] at k2; cases k2
    · obtain ⟨b, hb, _, _, hbd⟩ := initState_deps (hi.sub _ _ k3)
      exact ⟨b, hb, d.name, .dependency hbd k4, k2⟩
  · split at h
    · cases h
    · rename_i hnb
      obtain ⟨k1, _, _⟩ := isCircular_ok hb
      rcases Res.fails_bind h with h | ⟨_, _, h⟩
      · refine followAll_fails hok hr _ s [] (.refl ..) hi (fun n hn' => ?_) h
        obtain ⟨d, hd, hl, rfl⟩ := mem_localDeps.1 hn'
        rw [hi.deps _ hn] at hd
        have he : Edge own (initState as).deps a.name d.name := ⟨d, hd, hl, rfl⟩
        rw [initState_deps_eq ha] at hd
        refine ⟨fun _ => ⟨he, .inr fun ht => hnb (k1.2 ⟨a.name, by simp, ?_⟩)⟩, fun _ => ⟨a, hmem, .dependency hd hl⟩⟩
        refine Relation.TransGen.trans (.single ⟨d, ?_, hl, rfl⟩) ht
        rw [hi.deps _ hn, initState_deps_eq ha]; exact hd
      · cases h

theorem followAssignment_fails {tree : Tree} {own : Name} {rf : Nat} {as : List Assignment} {s : DepState}
    {rec : Name → DepState → Res DepState} (hok : RecOK as tree own rec) {a : Assignment}
    (ha : findLastAssignment as a.name = some a) (hr : RecFails tree own rf as a.name s rec) {z : Fail} (hi : DInv as s)
    (hn : a.name ∉ s.assigned)
    (h : (followAssignment as tree own rf rec a s).fails = some z) : Why tree own rf as z := by
  have hmem := (findLastAssignment_some ha).1
  unfold followAssignment at h
  split at h
  · exact followBreakable_fails hok ha hr hi hn h
  · exact followBreakable_fails hok ha hr hi hn h
  · exact followBreakable_fails hok ha hr hi hn h
  · rename_i cs e hb
    rcases Res.fails_bind h with h | ⟨_, _, h⟩
    · exact followComps_fails hok ha hr (cs := cs) (by rw [hb]; rfl) cs (fun _ h => h) s [] (.refl ..) hi h
    · cases h
  · rename_i cs e hb
    rcases Res.fails_bind h with h | ⟨_, _, h⟩
    · exact followComps_fails hok ha hr (cs := cs) (by rw [hb]; rfl) cs (fun _ h => h) s [] (.refl ..) hi h
    · cases h
  · rename_i g1 g2 g3 g4 g5
    have hc : components a.body = none := by
      unfold components
      split
      · rename_i cs e hb; exact absurd hb (g4 _ _)
      · rename_i cs e hb; exact absurd hb (g5 _ _)
      · rfl
    have hrec : ¬ Recursive a.body := by
      unfold Recursive
      split
      · rename_i hb; exact absurd hb (g1 _ _)
      · rename_i hb; exact absurd hb (g2 _ _ _)
      · rename_i hb; exact absurd hb (g3 _ _ _)
      · exact id
    rcases Res.fails_bind h with h | ⟨_, _, h⟩
    · refine followAll_fails hok hr _ s [] (.refl ..) hi (fun n hn' => ?_) h
      obtain ⟨d, hd, hl, rfl⟩ := mem_localDeps.1 hn'
      rw [hi.deps _ hn] at hd
      have he : Edge own (initState as).deps a.name d.name := ⟨d, hd, hl, rfl⟩
      rw [initState_deps_eq ha] at hd
      exact ⟨fun _ => ⟨he, .inl (.other hmem hc hrec (mentions_of_dep hd hl))⟩, fun _ => ⟨a, hmem, .dependency hd hl⟩⟩
    · cases h

theorem resolveDeps_fails {tree : Tree} {own : Name} {rf : Nat} {as : List Assignment} : ∀ fuel n s z, DInv as s →
    unvisited (as.map (·.name)) s.visited < fuel → Stack tree own as s n →
    (findLastAssignment as n = none → ∃ a ∈ as, Followed tree own a n) →
    (resolveDeps as tree own rf fuel n s).fails = some z → Why tree own rf as z := by
  intro fuel
  induction fuel with
  | zero => intro n s z _ h; omega
  | succ fuel ih =>
    intro name s z hi hf hstk hfol h
    rw [resolveDeps] at h
    cases hl : findLastAssignment as name with
    | none =>
      rw [hl] at h
      cases h
      obtain ⟨a, ha, hfa⟩ := hfol hl
      exact .inr (.inl ⟨rfl, a, ha, name, hfa, hl⟩)
    | some a =>
      rw [hl] at h
      dsimp only at h
      split at h
      · cases h
      · rename_i hna
        have hna : name ∉ s.assigned := by simpa using hna
        split at h
        · rename_i hv
          cases h
          have hv : name ∈ s.visited := by simpa using hv
          refine .inr (.inr ⟨rfl, fun hh => ?_⟩)
          obtain ⟨k1, k2⟩ := hstk hh name ⟨hv, hna⟩
          rcases k2 with k2 | k2
          · exact ⟨name, k2⟩
          · refine absurd (transGen_mono (fun u v huv => ?_) k1) k2
            obtain ⟨d, h1, h2⟩ := huv.2
            exact ⟨d, by rw [hi.deps u huv.1.2]; exact h1, h2⟩
        · rename_i hv
          have hv : name ∉ s.visited := by simpa using hv
          obtain ⟨hmem, hname⟩ := findLastAssignment_some hl
          subst hname
          have hi1 : DInv as { s with visited := a.name :: s.visited } :=
            ⟨hi.deps, hi.sub, fun n hn => by simp [hi.vis n hn], hi.out, hi.def_⟩
          rcases Res.fails_bind h with h | ⟨_, _, h⟩
          · refine followAssignment_fails (resolveDeps_ok fuel) hl ?_ hi1 hna h
            intro n t add z' hst hit hmf hfo hrec
            refine ih n t z' hit ?_ ?_ hfo hrec
            · have h1 : unvisited (as.map (·.name)) t.visited ≤ unvisited (as.map (·.name)) (a.name :: s.visited) :=
                unvisited_mono fun m hm => (hst.visited m).2 (.inl hm)
              have h2 := unvisited_lt (v := s.visited) (List.mem_map_of_mem (f := (·.name)) hmem) hv
              omega
            · refine hstk.next hit hv (fun m => ?_) hst.sub hmf
              rw [hst.open_iff hi1]
              unfold Open
              simp only [List.mem_cons]
              constructor
              · rintro ⟨h1 | h1, h2⟩
                · exact .inl h1
                · exact .inr ⟨h1, h2⟩
              · rintro (h1 | ⟨h1, h2⟩)
                · subst h1; exact ⟨.inl rfl, hna⟩
                · exact ⟨.inr h1, h2⟩
          · cases h

/-- Why `reorderAssignments` fails. -/
theorem reorderAssignments_fails {tree : Tree} {own : Name} {rf : Nat} {as : List Assignment} {z : Fail}
    (h : (reorderAssignments tree own rf as).fails = some z) :
    Why tree own rf as z ∨ (z = .throw .lostDefinitions ∧ ¬ (as.map (·.name)).Nodup) := by
  unfold reorderAssignments at h
  have hbal : ∀ (l : List Assignment) s, (∀ a ∈ l, a ∈ as) → DInv as s → (∀ n, ¬ Open s n) →
      (l.foldlM (fun s a => resolveDeps as tree own rf (as.length + 1) a.name s) s).fails = some z → Why tree own rf as z := by
    intro l
    induction l with
    | nil => intro s _ _ _ h; cases h
    | cons a l ih =>
      intro s hl hi ho h
      rw [List.foldlM_cons] at h
      rcases Res.fails_bind h with h | ⟨t, h1, h⟩
      · refine resolveDeps_fails _ _ _ _ hi ?_ (fun _ x hx => absurd hx (ho x)) (fun hn => ?_) h
        · have := unvisited_le (as.map (·.name)) s.visited
          rw [List.length_map] at this
          omega
        · have := findLastAssignment_isSome.2 (List.mem_map_of_mem (f := (·.name)) (hl a (by simp)))
          rw [hn] at this; cases this
      · obtain ⟨x, k1, _⟩ := resolveDeps_ok _ _ _ _ hi h1
        exact ih t (fun b hb => hl b (by simp [hb])) (k1.inv hi) (fun n hn => ho n ((k1.open_iff hi n).1 hn)) h
  rcases Res.fails_bind h with h | ⟨s, h1, h⟩
  · exact .inl (hbal as (initState as) (fun _ h => h) (initState_inv as) (fun n hn => by simp [Open, initState] at hn) h)
  · split at h
    · rename_i hlen
      cases h
      refine .inr ⟨rfl, fun hnd => ?_⟩
      have hlen : as.length ≠ s.out.length := by simpa using hlen
      have hf : (as.map (·.name)).foldlM (fun s n => resolveDeps as tree own rf (as.length + 1) n s) (initState as) = .ok s := by
        rw [List.foldlM_map]; exact h1
      obtain ⟨add, k1, k2⟩ := followAll_ok (resolveDeps_ok (as.length + 1)) _ _ _ (initState_inv as) hf
      have hin := k1.inv (initState_inv as)
      have hout : s.out = add := by rw [k1.out]; rfl
      have e1 := length_le_of_nodup_subset (as.map (·.name)) (s.out.map (·.name)) hnd fun n hn => (hin.out n).1 (k2 n hn)
      have e2 := length_le_of_nodup_subset (s.out.map (·.name)) (as.map (·.name)) (by rw [hout]; exact k1.nodup)
        fun n hn => findLastAssignment_isSome.1 (hin.def_ n ((hin.out n).2 hn))
      simp only [List.length_map] at e1 e2
      omega
    · cases h

end FastBer.Ast
