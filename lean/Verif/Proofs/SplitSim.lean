import Verif.Proofs.Sim
import Verif.Proofs.Split
import Verif.Proofs.Modules
import Verif.Proofs.EmitOuter
import Verif.Model.Pipeline
import Verif.Spec.Source
/-!
# The split modules mean what the source means
-/
namespace FastBer.Ast
open FastBer.Ast.Spec

/-! ## Looking up -/

theorem find_key {α : Type} {key : α → Name} {l : List α} (h : l.Pairwise fun a b => key a ≠ key b) {a : α} (ha : a ∈ l) {n : Name} (hn : key a = n) :
    l.find? (fun x => key x == n) = some a := by
  subst hn
  induction l with
  | nil => cases ha
  | cons b l ih =>
    obtain ⟨h1, h2⟩ := List.pairwise_cons.1 h
    rw [List.find?_cons]
    rcases List.mem_cons.1 ha with rfl | ha
    · simp
    · rw [show (key b == key a) = false from beq_eq_false_iff_ne.2 (h1 a ha)]
      exact ih h2 ha

theorem pairwise_nodup {α : Type} {key : α → Name} {l : List α} : (l.map key).Nodup ↔ l.Pairwise fun a b => key a ≠ key b := by
  rw [List.Nodup, List.pairwise_map]

/-- Distinct names. -/
structure Distinct (T : Tree) : Prop where
  modules : T.modules.Pairwise fun a b => a.name ≠ b.name
  assignments : ∀ m ∈ T.modules, m.assignments.Pairwise fun a b => a.name ≠ b.name

theorem Distinct.target {T : Tree} (h : Distinct T) {m wm : Module} {q : Option Name} {ref : Name} {a : Assignment} {t : AType} (hm : wm ∈ T.modules)
    (hq : wm.name = q.getD m.name) (ha : a ∈ wm.assignments) (hn : a.name = ref) (hb : a.body = .type t) : target T m q ref = some (wm, t) := by
  unfold Spec.target
  rw [find_key (key := Module.name) h.modules hm hq]
  show (wm.assignments.find? (·.name == ref) >>= _) = _
  rw [find_key (key := Assignment.name) (h.assignments wm hm) ha hn]
  show (match a.body with | .type t => some (wm, t) | _ => none) = _
  rw [hb]

/-! ## The modules after splitting -/

/-- One module. -/
def SplitModule (m m' : Module) : Prop := ((splitImports m.assignments m.imports).map (·.name)).Nodup ∧
  ∃ j, m' = { m with assignments := (splitAssignments m.name (splitImports m.assignments m.imports) j).1 }

theorem splitLoop_ok {ms out : List Module} {k : Nat} (h : splitLoop ms k = .ok out) : Pointwise SplitModule ms out := by
  induction ms generalizing k out with
  | nil => cases h; exact .nil
  | cons m ms ih =>
    rw [splitLoop] at h
    obtain ⟨u, h1, h2⟩ := Res.bind_eq_ok.1 h
    obtain ⟨ms', h3, h4⟩ := Res.bind_eq_ok.1 h2
    cases h4
    exact .cons ⟨((checkDuplicatedFrom_ok _ _).1 h1).1, k, rfl⟩ (ih h3)

theorem splitAssignments_mem (own : Name) (as : List Assignment) (k : Nat) {a : Assignment} (ha : a ∈ as) {t : AType} (hb : a.body = .type t) :
    ∃ j, (∃ a' ∈ (splitAssignments own as k).1, a'.name = a.name ∧ a'.body = .type (findNested own t j).1) ∧
      ∀ p ∈ (findNested own t j).2.1, ∃ a' ∈ (splitAssignments own as k).1, a'.name = p.1 ∧ a'.body = .type p.2 := by
  induction as generalizing k with
  | nil => cases ha
  | cons b as ih =>
    rw [splitAssignments]
    rcases List.mem_cons.1 ha with rfl | ha
    · refine ⟨k, ?_⟩
      unfold splitAssignment
      rw [hb]
      dsimp only
      refine ⟨⟨{ a with body := .type (findNested own t k).1 }, by simp, rfl, rfl⟩, fun p hp => ?_⟩
      refine ⟨⟨p.1, .type p.2, []⟩, ?_, rfl, rfl⟩
      refine List.mem_append_left _ (List.mem_append_left _ (List.mem_map.2 ⟨p, List.mem_reverse.2 hp, rfl⟩))
    · obtain ⟨j, ⟨a', h1, h2⟩, h3⟩ := ih (splitAssignment own b k).2 ha
      refine ⟨j, ⟨a', List.mem_append_right _ h1, h2⟩, fun p hp => ?_⟩
      obtain ⟨a', h4, h5⟩ := h3 p hp
      exact ⟨a', List.mem_append_right _ h4, h5⟩

/-- Names of the split assignments. -/
theorem splitAssignments_nodup {own : Name} {as : List Assignment} {k : Nat} (hn : (as.map (·.name)).Nodup) (hu : ∀ a ∈ as, ¬ MadeUp a.name) :
    ((splitAssignments own as k).1.map (·.name)).Nodup := by
  obtain ⟨ns, h1, h2⟩ := (splitAssignments_splits own as k).names
  rw [h2.nodup_iff, List.nodup_append]
  refine ⟨hn, h1.nodup, ?_⟩
  intro a ha b hb hab
  subst hab
  obtain ⟨x, hx, rfl⟩ := List.mem_map.1 ha
  obtain ⟨_, _, hm⟩ := h1.mem hb
  exact hu x hx hm.madeUp

/-- A tree whose modules are the split modules of the source, in some order. -/
structure SplitTree (src S : Tree) : Prop where
  plain : PlainSource src
  modules : S.modules.Pairwise fun a b => a.name ≠ b.name
  split : ∀ m ∈ src.modules, ∃ m' ∈ S.modules, SplitModule m m'
  only : ∀ m' ∈ S.modules, ∃ m ∈ src.modules, SplitModule m m'

theorem mem_splitImports {as : List Assignment} {is : List Import} {a : Assignment} (h : a ∈ splitImports as is) :
    a ∈ as ∨ ∃ i ∈ is, ∃ n ∈ i.types, a = ⟨n, .type (.defined (some i.module) n []), []⟩ := by
  unfold splitImports at h
  rcases List.mem_append.1 h with h | h
  · exact .inl h
  · obtain ⟨i, hi, h⟩ := List.mem_flatMap.1 h
    obtain ⟨n, hn, rfl⟩ := List.mem_map.1 h
    exact .inr ⟨i, hi, n, hn, rfl⟩

theorem alias_mem {as : List Assignment} {is : List Import} {i : Import} {n : Name} (hi : i ∈ is) (hn : n ∈ i.types) :
    (⟨n, .type (.defined (some i.module) n []), []⟩ : Assignment) ∈ splitImports as is :=
  List.mem_append_right _ (List.mem_flatMap.2 ⟨i, hi, List.mem_map.2 ⟨n, hn, rfl⟩⟩)

theorem SplitTree.notMadeUp {src S : Tree} (h : SplitTree src S) {m : Module} (hm : m ∈ src.modules) {a : Assignment}
    (ha : a ∈ splitImports m.assignments m.imports) : ¬ MadeUp a.name := by
  rcases mem_splitImports ha with ha | ⟨i, hi, n, hn, rfl⟩
  · exact h.plain.names m hm a ha
  · exact h.plain.importNames m hm i hi n hn

theorem SplitTree.distinct {src S : Tree} (h : SplitTree src S) : Distinct S where
  modules := h.modules
  assignments := fun m' hm' => by
    obtain ⟨m, hm, h1, j, rfl⟩ := h.only m' hm'
    exact pairwise_nodup.1 (splitAssignments_nodup h1 fun a ha => h.notMadeUp hm ha)

theorem qualifyAssignment_name (src : Tree) (own : Name) (a : Assignment) : (qualifyAssignment src own a).name = a.name := by
  unfold qualifyAssignment
  split <;> rfl

theorem qualifyAssignment_body {src : Tree} {own : Name} {a : Assignment} {u : AType} (h : (qualifyAssignment src own a).body = .type u) :
    ∃ t, a.body = .type t ∧ u = qualifyType src own t := by
  unfold qualifyAssignment at h
  split at h
  · rename_i t ht
    cases h
    exact ⟨t, ht, rfl⟩
  · rename_i hb
    exact absurd h (hb u)

theorem qualifyAssignment_type {src : Tree} {own : Name} {a : Assignment} {t : AType} (h : a.body = .type t) :
    (qualifyAssignment src own a).body = .type (qualifyType src own t) := by
  unfold qualifyAssignment
  rw [h]

theorem SplitTree.source {src S : Tree} (h : SplitTree src S) {m : Module} (hm : m ∈ src.modules) :
    (m.assignments ++ m.imports.flatMap fun i => i.types.map fun t => (⟨t, .type (.defined (some i.module) t []), []⟩ : Assignment)).Pairwise fun a b => a.name ≠ b.name := by
  obtain ⟨m', -, h1, -⟩ := h.split m hm
  exact pairwise_nodup.1 h1

theorem SplitTree.qualified {src S : Tree} (h : SplitTree src S) : Distinct (qualify src) where
  modules := List.pairwise_map.2 h.plain.modules
  assignments := fun m' hm' => by
    obtain ⟨m, hm, rfl⟩ := List.mem_map.1 hm'
    refine List.pairwise_map.2 ?_
    refine ((List.pairwise_append.1 (h.source hm)).1).imp fun hab => ?_
    rwa [qualifyAssignment_name, qualifyAssignment_name]

/-- What a target in the qualified source is. -/
theorem qualify_target {src : Tree} {m1 w : Module} {q : Option Name} {ref : Name} {u : AType} (h : target (qualify src) m1 q ref = some (w, u)) :
    ∃ m ∈ src.modules, w = qualifyModule src m ∧ m.name = q.getD m1.name ∧ ∃ a ∈ m.assignments, a.name = ref ∧ ∃ t, a.body = .type t ∧ u = qualifyType src m.name t := by
  obtain ⟨h1, h2, a, h3, h4, h5⟩ := target_mem h
  obtain ⟨m, hm, rfl⟩ := List.mem_map.1 h1
  obtain ⟨a', ha', rfl⟩ := List.mem_map.1 h3
  obtain ⟨t, ht, rfl⟩ := qualifyAssignment_body h5
  exact ⟨m, hm, rfl, h2, a', ha', (qualifyAssignment_name src m.name a') ▸ h4, t, ht, rfl⟩

/-- References of the qualified source and of the split modules. -/
def SplitRel (src : Tree) : RefRel := fun m1 m ref m2 m' ref' =>
  m = some (origin src (m'.getD m2.name) ref) ∧ ref' = ref ∧ ∃ wu, target (qualify src) m1 m ref = some wu

theorem SplitTree.leads {src S : Tree} (h : SplitTree src S) {mod ref : Name} (hl : Leads src mod ref) (m1 : Module) :
    ∃ wu, target (qualify src) m1 (some (origin src mod ref)) ref = some wu := by
  obtain ⟨m, hm, hn, a, ha, hr, t, ht⟩ := hl
  exact ⟨_, h.qualified.target (List.mem_map.2 ⟨m, hm, rfl⟩) hn (List.mem_map.2 ⟨a, ha, rfl⟩) ((qualifyAssignment_name ..).trans hr)
    (qualifyAssignment_type ht)⟩

theorem qualifyAlts_get (src : Tree) (own : Name) (as : List Named) (i : Nat) :
    (qualifyAlts src own as)[i]? = as[i]?.map fun a => .mk a.name (qualifyType src own a.type) := by
  induction as generalizing i with
  | nil => rfl
  | cons a as ih =>
    cases a
    cases i with
    | zero => rfl
    | succ i => rw [qualifyAlts, List.getElem?_cons_succ, List.getElem?_cons_succ]; exact ih i

theorem qualifyComps_get (src : Tree) (own : Name) (cs : List Comp) (i : Nat) :
    (qualifyComps src own cs)[i]? = cs[i]?.map fun c => .mk c.name (qualifyType src own c.type) c.optional c.default c.componentsOf c.storage := by
  induction cs generalizing i with
  | nil => rfl
  | cons a as ih =>
    cases a
    cases i with
    | zero => rfl
    | succ i => rw [qualifyComps, List.getElem?_cons_succ, List.getElem?_cons_succ]; exact ih i

theorem hasTag_qualify (src : Tree) (own : Name) (t : AType) : hasTag (qualifyType src own t) = hasTag t := by
  cases t <;> rfl

theorem hasTag_findNested (own : Name) (t : AType) (k : Nat) : hasTag (findNested own t k).1 = hasTag t := by
  cases t <;> rfl

theorem findNestedAlts_length (own : Name) (as : List Named) (k : Nat) : (findNestedAlts own as k).1.length = as.length := by
  induction as generalizing k with
  | nil => rfl
  | cons a as ih => cases a; rw [findNestedAlts]; simp [ih]

theorem findNestedComps_length (own : Name) (as : List Comp) (k : Nat) : (findNestedComps own as k).1.length = as.length := by
  induction as generalizing k with
  | nil => rfl
  | cons a as ih => cases a; rw [findNestedComps]; simp [ih]

theorem qualifyAlts_length (src : Tree) (own : Name) (as : List Named) : (qualifyAlts src own as).length = as.length := by
  induction as with
  | nil => rfl
  | cons a as ih => cases a; rw [qualifyAlts]; simp [ih]

theorem qualifyComps_length (src : Tree) (own : Name) (as : List Comp) : (qualifyComps src own as).length = as.length := by
  induction as with
  | nil => rfl
  | cons a as ih => cases a; rw [qualifyComps]; simp [ih]

/-- Where the changed alternatives come from. -/
theorem findNestedAlts_get (own : Name) (as : List Named) (k : Nat) {i : Nat} {a' : Named} (h : (findNestedAlts own as k).1[i]? = some a') :
    ∃ a j, as[i]? = some a ∧ a' = .mk a.name (findNested own a.type j).1 ∧ ∀ p ∈ (findNested own a.type j).2.1, p ∈ (findNestedAlts own as k).2.1 := by
  induction as generalizing i k with
  | nil => cases h
  | cons a as ih =>
    obtain ⟨n, t⟩ := a
    rw [findNestedAlts] at h ⊢
    cases i with
    | zero => cases h; exact ⟨_, k, rfl, rfl, fun p hp => List.mem_append_left _ hp⟩
    | succ i =>
      obtain ⟨a, j, h1, h2, h3⟩ := ih _ (by simpa using h)
      exact ⟨a, j, by simpa using h1, h2, fun p hp => List.mem_append_right _ (h3 p hp)⟩

theorem findNestedComps_get (own : Name) (cs : List Comp) (k : Nat) {i : Nat} {c' : Comp} (h : (findNestedComps own cs k).1[i]? = some c') :
    ∃ c j, cs[i]? = some c ∧ c' = .mk c.name (findNested own c.type j).1 c.optional c.default c.componentsOf c.storage ∧
      ∀ p ∈ (findNested own c.type j).2.1, p ∈ (findNestedComps own cs k).2.1 := by
  induction cs generalizing i k with
  | nil => cases h
  | cons a as ih =>
    obtain ⟨n, t, o, d, co, s⟩ := a
    rw [findNestedComps] at h ⊢
    cases i with
    | zero => cases h; exact ⟨_, k, rfl, rfl, fun p hp => List.mem_append_left _ hp⟩
    | succ i =>
      obtain ⟨a, j, h1, h2, h3⟩ := ih _ (by simpa using h)
      exact ⟨a, j, by simpa using h1, h2, fun p hp => List.mem_append_right _ (h3 p hp)⟩

/-- The pushed definitions are there. -/
def Pushed (S : Tree) (m2 : Module) (ns : List (Name × AType)) : Prop := ∀ p ∈ ns, target S m2 (some m2.name) p.1 = some (m2, p.2)

theorem splitInner_sim {src S : Tree} {m1 m2 : Module} {own : Name} (hown : m2.name = own) {t : AType} {r : AType × List (Name × AType) × Nat}
    (hp : Pushed S m2 (splitInner own r).2.1) (h : Pushed S m2 r.2.1 → Sim (qualify src) S (SplitRel src) m1 t m2 r.1) :
    Sim (qualify src) S (SplitRel src) m1 t m2 (splitInner own r).1 := by
  obtain ⟨t', ns, k⟩ := r
  unfold splitInner at hp ⊢
  cases hx : unnamedPrefix t' with
  | none =>
    dsimp only at hp ⊢
    rw [hx] at hp
    rw [hx]
    exact h hp
  | some p =>
    dsimp only at hp ⊢
    rw [hx] at hp
    rw [hx]
    refine .right (w := m2) (u := t') ?_ (h fun q hq => hp q (List.mem_append_left _ hq))
    rw [← hown]
    exact hp (p ++ toString k, t') (List.mem_append_right _ (List.mem_singleton.2 rfl))

/-- A type of the source and what splitting makes of it. -/
theorem SplitTree.nested {src S : Tree} (h : SplitTree src S) {m m2 : Module} (hn : m2.name = m.name) (ht : m2.tagging = m.tagging) :
    ∀ (t : AType) (k : Nat), Occurs src m t → Pushed S m2 (findNested m.name t k).2.1 →
    Sim (qualify src) S (SplitRel src) (qualifyModule src m) (qualifyType src m.name t) m2 (findNested m.name t k).1
  | .leaf b, k, _, _ => .leaf ..
  | .objField q c fs, k, _, _ => .objField ..
  | .defined q ref ps, k, ho, _ => by
    refine .defined ⟨by rw [hn], rfl, ?_⟩
    exact h.leads (h.plain.references m q ref ps ho) _
  | .choice as s, k, ho, hp => by
    refine .choice _ _ ht.symm ((qualifyAlts_length ..).trans (findNestedAlts_length ..).symm) ?_ ?_
    all_goals
      intro i a a' h1 h2
      obtain ⟨b, j, h3, rfl, h4⟩ := findNestedAlts_get _ _ _ h2
      rw [qualifyAlts_get, h3] at h1
      cases h1
    · refine ⟨rfl, ?_⟩
      show hasTag (qualifyType _ _ _) = hasTag (findNested _ _ _).1
      rw [hasTag_qualify, hasTag_findNested]
    · have := List.sizeOf_lt_of_mem (List.mem_of_getElem? h3)
      exact SplitTree.nested h hn ht b.type j (.choice ho (List.mem_of_getElem? h3)) fun p hp' => hp p (h4 p hp')
  | .sequence cs e, k, ho, hp => by
    refine .sequence _ ht.symm ((qualifyComps_length ..).trans (findNestedComps_length ..).symm) ?_ ?_
    all_goals
      intro i a a' h1 h2
      obtain ⟨b, j, h3, rfl, h4⟩ := findNestedComps_get _ _ _ h2
      rw [qualifyComps_get, h3] at h1
      cases h1
    · refine ⟨rfl, ?_, rfl, rfl⟩
      show hasTag (qualifyType _ _ _) = hasTag (findNested _ _ _).1
      rw [hasTag_qualify, hasTag_findNested]
    · have := List.sizeOf_lt_of_mem (List.mem_of_getElem? h3)
      exact SplitTree.nested h hn ht b.type j (.sequence ho (List.mem_of_getElem? h3)) fun p hp' => hp p (h4 p hp')
  | .set cs e, k, ho, hp => by
    refine .set _ ht.symm ((qualifyComps_length ..).trans (findNestedComps_length ..).symm) ?_ ?_
    all_goals
      intro i a a' h1 h2
      obtain ⟨b, j, h3, rfl, h4⟩ := findNestedComps_get _ _ _ h2
      rw [qualifyComps_get, h3] at h1
      cases h1
    · refine ⟨rfl, ?_, rfl, rfl⟩
      show hasTag (qualifyType _ _ _) = hasTag (findNested _ _ _).1
      rw [hasTag_qualify, hasTag_findNested]
    · have := List.sizeOf_lt_of_mem (List.mem_of_getElem? h3)
      exact SplitTree.nested h hn ht b.type j (.set ho (List.mem_of_getElem? h3)) fun p hp' => hp p (h4 p hp')
  | .seqOf n t s, k, ho, hp => .seqOf _ _ _ _ (splitInner_sim hn hp fun hp => SplitTree.nested h hn ht t k (.seqOf ho) hp)
  | .setOf n t s, k, ho, hp => .setOf _ _ _ _ (splitInner_sim hn hp fun hp => SplitTree.nested h hn ht t k (.setOf ho) hp)
  | .prefixed c n md t, k, ho, hp => .prefixed _ _ _ ht.symm (splitInner_sim hn hp fun hp => SplitTree.nested h hn ht t k (.prefixed ho) hp)
termination_by t => sizeOf t
decreasing_by all_goals first | (cases b; simp_all [Named.type, Comp.type]; omega) | (simp; try omega)

/-- An assigned type of the source and what has become of it. -/
theorem SplitTree.assigned {src S : Tree} (h : SplitTree src S) {m : Module} (hm : m ∈ src.modules) {a : Assignment} (ha : a ∈ m.assignments)
    {t : AType} (hb : a.body = .type t) {q : Option Name} {m0 : Module} (hq : q.getD m0.name = m.name) :
    ∃ m' u, m' ∈ S.modules ∧ m'.name = m.name ∧ target S m0 q a.name = some (m', u) ∧ Sim (qualify src) S (SplitRel src) (qualifyModule src m) (qualifyType src m.name t) m' u := by
  obtain ⟨m', hm', hnod, j, rfl⟩ := h.split m hm
  obtain ⟨k, ⟨a', h1, h2, h3⟩, h4⟩ := splitAssignments_mem m.name (splitImports m.assignments m.imports) j (List.mem_append_left _ ha) hb
  refine ⟨_, _, hm', rfl, h.distinct.target hm' hq.symm h1 h2 h3, ?_⟩
  refine h.nested (m := m) (m2 := { m with assignments := (splitAssignments m.name (splitImports m.assignments m.imports) j).1 }) rfl rfl t k (.assigned hm ha hb) fun p hp => ?_
  obtain ⟨a', h5, h6, h7⟩ := h4 p hp
  exact h.distinct.target hm' rfl h5 h6 h7

theorem originFrom_assigned {src : Tree} {m : Module} (hm : src.modules.find? (·.name == m.name) = some m) {ref : Name} (hr : ∃ a ∈ m.assignments, a.name = ref)
    (n : Nat) : originFrom src n m.name ref = m.name := by
  cases n with
  | zero => rfl
  | succ n =>
    rw [originFrom, hm]
    dsimp only
    rw [if_pos]
    obtain ⟨a, ha, rfl⟩ := hr
    exact List.any_eq_true.2 ⟨a, ha, by simp⟩

/-- Whatever the import path: the name leads to the same type. -/
theorem SplitTree.path {src S : Tree} (h : SplitTree src S) {ref : Name} {m1 w : Module} {u : AType} : ∀ (n : Nat) (mod : Name) (m0 : Module) (q : Option Name),
    q.getD m0.name = mod → target (qualify src) m1 (some (originFrom src n mod ref)) ref = some (w, u) →
    ∃ w' u', target S m0 q ref = some (w', u') ∧ Sim (qualify src) S (SplitRel src) w u w' u' := by
  have base : ∀ (mod : Name) (m0 : Module) (q : Option Name), q.getD m0.name = mod → target (qualify src) m1 (some mod) ref = some (w, u) →
      ∃ w' u', target S m0 q ref = some (w', u') ∧ Sim (qualify src) S (SplitRel src) w u w' u' := by
    intro mod m0 q hq ht
    obtain ⟨m, hm, rfl, hn, a, ha, rfl, t, hb, rfl⟩ := qualify_target ht
    obtain ⟨m', u', _, _, h1, h2⟩ := h.assigned hm ha hb (q := q) (m0 := m0) (hq.trans hn.symm)
    exact ⟨m', u', h1, h2⟩
  intro n
  induction n with
  | zero => exact base
  | succ n ih =>
    intro mod m0 q hq ht
    rw [originFrom] at ht
    split at ht
    · exact base mod m0 q hq ht
    · rename_i m hf
      split at ht
      · exact base mod m0 q hq ht
      · split at ht
        · exact base mod m0 q hq ht
        · rename_i i hi
          have hmi := List.mem_of_find?_eq_some hi
          have hri : ref ∈ i.types := by simpa using List.find?_some hi
          have hm := List.mem_of_find?_eq_some hf
          have hmn : m.name = mod := by simpa using List.find?_some hf
          obtain ⟨m', hm', hnod, j, rfl⟩ := h.split m hm
          obtain ⟨k, ⟨a', h1, h2, h3⟩, -⟩ := splitAssignments_mem m.name (splitImports m.assignments m.imports) j (alias_mem hmi hri) rfl
          obtain ⟨w', u', h4, h5⟩ := ih i.module { m with assignments := (splitAssignments m.name (splitImports m.assignments m.imports) j).1 } (some i.module) rfl ht
          exact ⟨_, _, h.distinct.target hm' (hmn.trans hq.symm) h1 h2 h3, .right h4 h5⟩

theorem SplitTree.corr {src S : Tree} (h : SplitTree src S) : Corr (qualify src) S (SplitRel src) where
  fwd := by
    rintro m1 m ref m2 m' ref' w u ⟨rfl, rfl, -⟩ ht
    exact h.path _ _ _ _ rfl ht
  bwd := by
    rintro m1 m ref m2 m' ref' w' u' ⟨rfl, rfl, ⟨w, u⟩, ht⟩ ht'
    obtain ⟨w'', u'', h1, h2⟩ := h.path _ _ _ _ rfl ht
    rw [ht'] at h1
    cases h1
    exact ⟨w, u, ht, h2⟩

end FastBer.Ast
