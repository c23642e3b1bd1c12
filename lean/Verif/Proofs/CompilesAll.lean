import Verif.Proofs.CompilesOrder
import Verif.Proofs.CompilesFuel
/-!
# The generated code is valid C++: all conditions
-/
namespace FastBer.Ast
open FastBer.Ast.Spec FastBer.Spec

/-! ## DEFAULT -/

theorem Sim.leaf_of {T1 T2 : Tree} {R : RefRel} {m1 m2 : Module} {t2 : AType} {k : Builtin} (h : Sim T1 T2 R m1 (.leaf k) m2 t2) (hc : isCore t2 = true) : t2 = .leaf k := by
  cases h with
  | leaf => rfl
  | right => cases hc

theorem defaultsTaken_stands {lib : Lib} {T1 T2 : Tree} {R : RefRel} (hc : Corr T1 T2 R) (hs : Stands T1 T2 R) (hd : DefaultsTaken lib T1) : DefaultsTaken lib T2 := by
  intro m2 cs2 e c2 v ho hm hopt hdef
  have key : ∀ {m1 : Module} {cs1 : List Comp}, (Occurs T1 m1 (.sequence cs1 e) ∨ Occurs T1 m1 (.set cs1 e)) → cs1.length = cs2.length →
      (∀ (i : Nat) c c', cs1[i]? = some c → cs2[i]? = some c' → c.name = c'.name ∧ hasTag c.type = hasTag c'.type ∧ c.optional = c'.optional ∧ c.default = c'.default) →
      (∀ (i : Nat) c c', cs1[i]? = some c → cs2[i]? = some c' → Sim T1 T2 R m1 c.type m2 c'.type) →
      ∃ wm k, Core T2 m2 c2.type wm (.leaf k) ∧ ∀ l i, lib.leaf k = some l ∨ (k = .enumerated ∧ l = .enum) → (lib.default (.leaf l i) v).isSome := by
    intro m1 cs1 ho1 hlen h3 h4
    obtain ⟨i, hi⟩ := List.getElem?_of_mem hm
    obtain ⟨c1, hc1⟩ := get_other hlen.symm hi
    obtain ⟨-, -, h5, h6⟩ := h3 i _ _ hc1 hi
    obtain ⟨wm, k, h7, h8⟩ := hd m1 cs1 e c1 v ho1 (List.mem_of_getElem? hc1) (h5.trans hopt) (h6.trans hdef)
    obtain ⟨wm', u', h9, h10⟩ := (h4 i _ _ hc1 hi).core hc h7
    cases h10.leaf_of (core_isCore h9)
    exact ⟨wm', k, h9, h8⟩
  rcases ho with ho | ho
  · obtain ⟨m1, t1, h1, hn, h2⟩ := hs _ _ ho (by nofun)
    cases h2 with
    | left => exact absurd rfl (hn _ _ _)
    | sequence e ht hlen h3 h4 => exact key (.inl h1) hlen h3 h4
  · obtain ⟨m1, t1, h1, hn, h2⟩ := hs _ _ ho (by nofun)
    cases h2 with
    | left => exact absurd rfl (hn _ _ _)
    | set e ht hlen h3 h4 => exact key (.inr h1) hlen h3 h4

/-! ## Lists and enumerations -/

/-- SEQUENCE OF, SET OF or ENUMERATED. -/
def Simple (u : AType) : Prop := isList u = true ∨ u = .leaf .enumerated

theorem Sim.simple {T1 T2 : Tree} {R : RefRel} {m1 m2 : Module} {t1 t2 : AType} (h : Sim T1 T2 R m1 t1 m2 t2) (h1 : isCore t1 = true) (h2 : isCore t2 = true) (hs : Simple t1) : Simple t2 := by
  rcases hs with hs | rfl
  · exact .inl ((h.isStruct h1 h2).2 ▸ hs)
  · exact .inr (h.leaf_of h2)

theorem unnamedPrefix_core {t : AType} {p : String} (h : unnamedPrefix t = some p) : isCore t = true := by
  cases t with
  | leaf b => rfl
  | set | sequence | choice => rfl
  | _ => cases h

section
variable {src S out : Tree} (h : SplitTree src S) (hs : SupportedSource src) (ha : Accepted src) (hc : CompilableSourceNames src) (hK : KeptTree S out)
  {m m2 m3 : Module} (hM : MadeOf src S out m m2 m3)

include h hs hc hK hM in
/-- A reference to a list or enumeration. -/
theorem MadeOf.simple {q : Option Name} {ref : Name} {ps : List AType} {wm : Module} {u : AType} (ho : Occurs out m3 (.defined q ref ps))
    (hcore : Core out m3 (.defined q ref ps) wm u) (hu : Simple u) : q.getD m.name = m.name ∧ target out m3 q ref = some (wm, u) := by
  have hcm := hM.comes h ho
  have hn3 : m3.name = m2.name := hM.name.trans hM.made.name.symm
  have hn2 : m2.name = m.name := hM.made.name
  have key : ∀ w3 u3, target out m3 q ref = some (w3, u3) → isCore u3 = true → target out m3 q ref = some (wm, u) := by
    intro w3 u3 h1 h2
    obtain ⟨rfl, rfl⟩ := hcore.unique (.reference h1 (.here h2))
    exact h1
  have back : ∃ wm' u', Core S m2 (.defined q ref ps) wm' u' ∧ Simple u' := by
    have hsim : Sim S out SameRef m2 (.defined q ref ps) m3 (.defined q ref ps) := .defined ⟨hn3.symm, rfl, rfl⟩
    obtain ⟨wm', u', h1, h2⟩ := hsim.symm.core hK.stored.corr.symm hcore
    exact ⟨wm', u', h1, h2.simple (core_isCore hcore) (core_isCore h1) hu⟩
  obtain ⟨wm2, u2, hcore2, hu2⟩ := back
  generalize hx : AType.defined q ref ps = t at hcm
  cases hcm with
  | @alias i x hi hmem =>
    exfalso
    cases hx
    have hsim : Sim (qualify src) S (SplitRel src) m (qualifyType src m.name (.defined (some i.module) ref [])) m2 (.defined (some i.module) ref []) :=
      .defined ⟨rfl, rfl, h.leads (h.plain.imports m hM.source i hi _ hmem) _⟩
    obtain ⟨wm', u', h4, h5⟩ := hsim.symm.core h.corr.symm hcore2
    rcases h5.simple (core_isCore hcore2) (core_isCore h4) hu2 with h6 | h6
    · rw [hs.importedLists m hM.source i hi _ hmem wm' u' h4] at h6
      cases h6
    · exact hc.importedEnums m hM.source i hi _ hmem wm' u' h4 h6
  | @made t k hso hp =>
    cases t with
    | defined =>
      cases hx
      have hsim : Sim (qualify src) S (SplitRel src) m (qualifyType src m.name (.defined q ref ps)) m2 (.defined q ref ps) :=
        .defined ⟨by rw [hn2], rfl, h.leads (h.plain.references m q ref ps hso) _⟩
      obtain ⟨wm', u', h4, h5⟩ := hsim.symm.core h.corr.symm hcore2
      obtain ⟨h6, a, h7, rfl, t, h8, h9⟩ := hc.direct m q ref ps wm' u' hso h4 (h5.simple (core_isCore hcore2) (core_isCore h4) hu2)
      refine ⟨h6, ?_⟩
      have hmade := hM.made
      obtain ⟨-, j, hj⟩ := hmade
      obtain ⟨k, ⟨a', h10, h11, h12⟩, -⟩ := splitAssignments_mem m.name (splitImports m.assignments m.imports) j (List.mem_append_left _ h7) h8
      have h13 : a' ∈ m3.assignments := (hM.kept a').2 (by rw [hj]; exact h10)
      refine key m3 _ (hK.stored.distinct'.target hM.output (by rw [hM.name, h6]) h13 h11 h12) ?_
      rcases h9 with h9 | rfl
      · cases t with
        | seqOf | setOf => rfl
        | _ => cases h9
      · rfl
    | _ => cases hx
  | @name t k p hso hp hpre j htar =>
    cases hx
    refine ⟨rfl, ?_⟩
    obtain ⟨w3, h1⟩ := hK.target (m3 := m3) hn3 htar
    exact key w3 _ h1 (unnamedPrefix_core hpre)

include h hs hc hK hM in
theorem MadeOf.localEnums : LocalEnums out m3 := by
  intro q ref ps wm ho ht
  obtain ⟨h1, -⟩ := hM.simple h hs hc hK ho (.reference ht (.here rfl)) (.inr rfl)
  rw [(target_mem ht).2.1, hM.name, h1]

/-! ## Names -/

include hs hc hM in
theorem MadeOf.assignedName {a : Assignment} (hm : a ∈ m3.assignments) : Unended a.name := by
  rcases hM.made.assignment ((hM.kept a).1 hm) with ⟨b, h1, h2⟩ | ⟨i, h1, h2⟩ | h1
  · exact h2 ▸ ⟨(hs.typeNames m hM.source b h1).2, hc.assignedNames m hM.source b h1⟩
  · exact ⟨(hs.importedNames m hM.source i h1 _ h2).2, hc.importedNames m hM.source i h1 _ h2⟩
  · exact unended_madeUp h1

include h hM in
theorem MadeOf.field {n : Name} {t' : AType} (hf : Spec.Field out m3 n t') : ∃ t, Spec.Field src m n t := by
  obtain ⟨m', h1, t, k, -, h2, h3, -⟩ := h.field (kept_field hM.split hM.kept hf)
  have e : m' = m := by
    have := (find_key (key := Module.name) h.plain.modules h1 (h2.name.symm.trans hM.made.name)).symm.trans (find_key (key := Module.name) h.plain.modules hM.source rfl)
    exact Option.some.inj this
  exact ⟨t, e ▸ h3⟩

/-- The type assigned, with its name. -/
def namedType (a : Assignment) : Option (Name × AType) := match a.body with
  | .type t => some (a.name, t)
  | _ => none

theorem namedType_some {a : Assignment} {p : Name × AType} (h : namedType a = some p) : a.name = p.1 ∧ a.body = .type p.2 := by
  unfold namedType at h
  split at h
  · rename_i hb; cases h; exact ⟨rfl, hb⟩
  · cases h

theorem declaresA_type (tree : Tree) (mod : Module) : ∀ l : List Assignment, l.flatMap (declaresA tree mod) = (l.filterMap namedType).flatMap fun p => declares tree mod p.2 p.1
  | [] => rfl
  | a :: l => by
    rw [List.flatMap_cons, declaresA_type tree mod l]
    unfold declaresA
    split
    · rename_i t hb
      have : namedType a = some (a.name, t) := by rw [namedType, hb]
      rw [List.filterMap_cons_some this, List.flatMap_cons]
    · rename_i hb
      have : namedType a = none := by
        rw [namedType]
        split
        · rename_i t ht; exact absurd ht (hb t)
        · rfl
      rw [List.filterMap_cons_none this, List.nil_append]

theorem filterMap_names : ∀ l : List Assignment, List.Sublist ((l.filterMap namedType).map (·.1)) (l.map (·.name))
  | [] => .slnil
  | a :: l => by
    cases ht : namedType a with
    | none =>
      rw [List.filterMap_cons_none ht]
      exact (filterMap_names l).cons _
    | some p =>
      rw [List.filterMap_cons_some ht, List.map_cons, List.map_cons, (namedType_some ht).1]
      exact (filterMap_names l).cons_cons _

include h hs hc hK hM in
theorem MadeOf.namespaces : (m3.assignments.flatMap (declaresA out m3)).Nodup := by
  rw [declaresA_type]
  refine flatMap_declares (hM.localEnums h hs hc hK) (fun p : Name × AType => p.1) (fun p => p.2) _ ?_ ?_ ?_
  · exact (filterMap_names _).nodup (pairwise_nodup.2 (hK.stored.distinct'.assignments m3 hM.output))
  · intro p hp
    obtain ⟨a, h1, h2⟩ := List.mem_filterMap.1 hp
    exact (namedType_some h2).1 ▸ hM.assignedName hs hc h1
  · intro p hp
    obtain ⟨a, h1, h2⟩ := List.mem_filterMap.1 hp
    exact .assigned hM.output h1 (namedType_some h2).2

/-! ## Structs -/

theorem ne_append_underscore (n : Name) : n ++ "_" ≠ n := by
  intro he
  have := congrArg (fun x => x.toList.length) he
  simp at this

theorem memberName_ne (n p : Name) : memberName n p ≠ p := by
  unfold memberName
  split
  · rename_i he; rw [he]; exact ne_append_underscore p
  · assumption

theorem memberName_inj {a b p : Name} (ha : typeName a ≠ typeName b ++ "_") (hb : typeName b ≠ typeName a ++ "_") (h : memberName a p = memberName b p) : typeName a = typeName b := by
  unfold memberName at h
  split at h <;> split at h
  · rename_i h1 h2; rw [h1, h2]
  · rename_i h1 _; exact absurd h.symm (h1 ▸ hb)
  · rename_i _ h1; exact absurd h (h1 ▸ ha)
  · exact h

theorem nodup_map {α β : Type} {f : α → β} : ∀ {l : List α}, l.Nodup → (∀ a ∈ l, ∀ b ∈ l, f a = f b → a = b) → (l.map f).Nodup
  | [], _, _ => List.nodup_nil
  | a :: l, hn, hf => by
    rw [List.map_cons]
    obtain ⟨h1, h2⟩ := List.nodup_cons.1 hn
    refine List.nodup_cons.2 ⟨fun hm => ?_, nodup_map h2 fun x hx y hy => hf x (List.mem_cons_of_mem _ hx) y (List.mem_cons_of_mem _ hy)⟩
    obtain ⟨b, hb, he⟩ := List.mem_map.1 hm
    exact h1 (hf b (List.mem_cons_of_mem _ hb) a List.mem_cons_self he ▸ hb)

/-- Members have different names. -/
theorem memberName_nodup {p : Name} : ∀ {l : List Name}, (l.map typeName).Nodup → (∀ n ∈ l, ∀ q ∈ l, typeName n ≠ typeName q ++ "_") → (l.map fun n => memberName n p).Nodup
  | [], _, _ => List.nodup_nil
  | n :: l, hn, hf => by
    rw [List.map_cons] at hn ⊢
    obtain ⟨h1, h2⟩ := List.nodup_cons.1 hn
    refine List.nodup_cons.2 ⟨fun hm => ?_, memberName_nodup h2 fun x hx y hy => hf x (List.mem_cons_of_mem _ hx) y (List.mem_cons_of_mem _ hy)⟩
    obtain ⟨b, hb, he⟩ := List.mem_map.1 hm
    refine h1 (List.mem_map.2 ⟨b, hb, ?_⟩)
    exact memberName_inj (hf b (List.mem_cons_of_mem _ hb) n List.mem_cons_self) (hf n List.mem_cons_self b (List.mem_cons_of_mem _ hb)) he

include h hs hc hK hM in
theorem MadeOf.scope {n : Name} {cs cs' : List Comp} {k : Nat} (hcs : cs' = (findNestedComps m.name cs k).1) (hn : Unended n)
    (hnod : (cs.map fun c => typeName c.name).Nodup) (hf : ∀ c ∈ cs, Spec.Field src m c.name c.type) (ho : ∀ c ∈ cs', Occurs out m3 c.type) :
    (n :: cs'.flatMap fun c => declares out m3 c.type (memberName c.name n)).Nodup := by
  have hname : ∀ c' ∈ cs', ∃ c ∈ cs, c'.name = c.name := by
    intro c' hc'
    obtain ⟨c, h1, j, rfl, -⟩ := nested_comp (hcs ▸ hc')
    exact ⟨c, h1, rfl⟩
  have hun : ∀ c' ∈ cs', Unended (memberName c'.name n) := by
    intro c' hc'
    obtain ⟨c, h1, h2⟩ := hname c' hc'
    rw [h2]
    exact unended_member (unended_field hs hc (hf c h1))
  refine List.nodup_cons.2 ⟨?_, ?_⟩
  · exact not_declared (hM.localEnums h hs hc hK) (fun c : Comp => memberName c.name n) Comp.type hn hun ho fun c _ => memberName_ne _ _
  · refine flatMap_declares (hM.localEnums h hs hc hK) (fun c : Comp => memberName c.name n) Comp.type cs' ?_ hun ho
    have e : cs'.map (fun c => memberName c.name n) = (cs.map (·.name)).map fun x => memberName x n := by
      rw [← nestedComps_names m.name cs k, ← hcs, List.map_map]; rfl
    rw [e]
    refine memberName_nodup (by rw [List.map_map]; exact hnod) fun x hx y hy => ?_
    obtain ⟨c, h1, rfl⟩ := List.mem_map.1 hx
    obtain ⟨d, h2, rfl⟩ := List.mem_map.1 hy
    exact hc.fieldEnds m _ _ (hf c h1) _ _ (hf d h2)

include hc in
/-- A field does not have the name of what is around it unless the source says so. -/
theorem PlacedAs.ne {n : Name} {t : AType} (hp : PlacedAs src m n t) {x : Name} {u : AType} (hf : Spec.Field src m x u) (hcalled : Called src m n t → typeName x ≠ n) : typeName x ≠ n := by
  cases hp with
  | called hcl => exact hcalled hcl
  | madeUp hmu _ =>
    rintro rfl
    exact hc.fieldMadeUp m _ _ hf hmu
  | renamed h0 => exact hc.fieldEnds m _ _ hf _ _ h0

end

/-- The conditions on the output of the front end. -/
theorem output_names {src S out : Tree} (h : SplitTree src S) (hs : SupportedSource src) (hc : CompilableSourceNames src) (hK : KeptTree S out) : CompilableNames out := by
  have mk : ∀ {m3 : Module}, m3 ∈ out.modules → ∃ m m2, MadeOf src S out m m2 m3 := fun hm => madeOf h hK hm
  exact {
    classes := fun m3 hm a hma d hb => by
      obtain ⟨m, m2, hM⟩ := mk hm
      exact h.classes m2 hM.split a ((hM.kept a).1 hma) d hb
    universal := fun m3 c n k t ho => by
      obtain ⟨m, m2, hM⟩ := mk (occurs_mem ho)
      obtain ⟨t0, j, hso, he⟩ := hM.nested h ho (by nofun)
      cases t0 with
      | prefixed c0 n0 k0 t0 =>
        obtain ⟨rfl, -, -, -⟩ := AType.prefixed.inj he
        exact hc.universal _ _ _ _ _ hso
      | _ => cases he
    direct := fun m3 q ref ps wm u ho hcore hu => by
      obtain ⟨m, m2, hM⟩ := mk (occurs_mem ho)
      exact (hM.simple h hs hc hK ho hcore hu).2
    elements := fun m3 n t s ho => by
      rcases ho with ho | ho
      · obtain ⟨m, m2, hM⟩ := mk (occurs_mem ho)
        exact hM.element h ho (.inl ⟨_, _, rfl⟩)
      · obtain ⟨m, m2, hM⟩ := mk (occurs_mem ho)
        exact hM.element h ho (.inr (.inl ⟨_, _, rfl⟩))
    typeValues := fun m3 hm a hma => by
      obtain ⟨m, m2, hM⟩ := mk hm
      exact (hM.assignedName hs hc hma).2
    fieldValues := fun m3 n t hf => by
      obtain ⟨m, m2, hM⟩ := mk (occurs_mem (field_occurs hf))
      obtain ⟨t0, hf0⟩ := hM.field h hf
      exact hc.fieldNames _ _ _ hf0
    namespaces := fun m3 hm => by
      obtain ⟨m, m2, hM⟩ := mk hm
      exact hM.namespaces h hs hc hK
    sequences := fun m3 n cs' e hp => by
      obtain ⟨m, m2, hM⟩ := mk (occurs_mem (placed_occurs hp))
      obtain ⟨t, k, h3, h4⟩ := hM.placed h hp rfl
      obtain ⟨cs, rfl, h5⟩ := nested_sequence h4
      exact hM.scope h hs hc hK h5 (h3.unended hs hc) (hc.sequence _ _ _ h3.occurs) (fun c hcm => .sequence h3.occurs hcm) fun c hcm => .sequence (placed_occurs hp) hcm
    sets := fun m3 n cs' e hp => by
      obtain ⟨m, m2, hM⟩ := mk (occurs_mem (placed_occurs hp))
      obtain ⟨t, k, h3, h4⟩ := hM.placed h hp rfl
      obtain ⟨cs, rfl, h5⟩ := nested_set h4
      exact hM.scope h hs hc hK h5 (h3.unended hs hc) (hc.set _ _ _ h3.occurs) (fun c hcm => .set h3.occurs hcm) fun c hcm => .set (placed_occurs hp) hcm
    choices := fun m3 n as' s hp => by
      obtain ⟨m, m2, hM⟩ := mk (occurs_mem (placed_occurs hp))
      obtain ⟨t, k, h3, h4⟩ := hM.placed h hp rfl
      obtain ⟨as, rfl, h5⟩ := nested_choice h4
      have hname : ∀ a' ∈ as', ∃ a ∈ as, a'.name = a.name := by
        intro a' ha'
        obtain ⟨a, h6, j, rfl, -⟩ := nested_alt (h5 ▸ ha')
        exact ⟨a, h6, rfl⟩
      have hun : ∀ a' ∈ as', Unended (typeName a'.name) := by
        intro a' ha'
        obtain ⟨a, h6, h7⟩ := hname a' ha'
        rw [h7]
        exact unended_field hs hc (.choice h3.occurs h6)
      have ho : ∀ a' ∈ as', Occurs out m3 a'.type := fun a' ha' => .choice (placed_occurs hp) ha'
      refine List.nodup_cons.2 ⟨?_, ?_⟩
      · refine not_declared (hM.localEnums h hs hc hK) (fun a : Named => typeName a.name) Named.type (h3.unended hs hc) hun ho fun a' ha' => ?_
        obtain ⟨a, h6, h7⟩ := hname a' ha'
        show typeName a'.name ≠ n
        rw [h7]
        exact h3.ne hc (.choice h3.occurs h6) fun hcl => hc.alternatives _ _ _ _ _ hcl h6
      · refine flatMap_declares (hM.localEnums h hs hc hK) (fun a : Named => typeName a.name) Named.type as' ?_ hun ho
        have e : as'.map (fun a => typeName a.name) = (as.map (·.name)).map typeName := by
          rw [← nestedAlts_names m.name as k, ← h5, List.map_map]; rfl
        rw [e, List.map_map]
        exact hc.choice _ _ _ h3.occurs
    sequenceNames := fun m3 n cs' e c' hp hcm hst => by
      obtain ⟨m, m2, hM⟩ := mk (occurs_mem (placed_occurs hp))
      obtain ⟨t, k, h3, h4⟩ := hM.placed h hp rfl
      obtain ⟨cs, rfl, h5⟩ := nested_sequence h4
      obtain ⟨c, h6, j, rfl, -⟩ := nested_comp (h5 ▸ hcm)
      have hf : Spec.Field src m c.name c.type := .sequence h3.occurs h6
      exact h3.ne hc hf fun hcl => hc.sequenceNames _ _ _ _ c hcl h6 (isStruct_nested m.name c.type j hst)
    setNames := fun m3 n cs' e c' hp hcm hst => by
      obtain ⟨m, m2, hM⟩ := mk (occurs_mem (placed_occurs hp))
      obtain ⟨t, k, h3, h4⟩ := hM.placed h hp rfl
      obtain ⟨cs, rfl, h5⟩ := nested_set h4
      obtain ⟨c, h6, j, rfl, -⟩ := nested_comp (h5 ▸ hcm)
      have hf : Spec.Field src m c.name c.type := .set h3.occurs h6
      exact h3.ne hc hf fun hcl => hc.setNames _ _ _ _ c hcl h6 (isStruct_nested m.name c.type j hst) }

theorem output_compilable {src S out : Tree} (h : SplitTree src S) (hs : SupportedSource src) (ha : Accepted src) (hc : CompilableSource src)
    {ms : List Module} (hperm : ms.Perm src.modules) (hfirst : ImportsFirst [] ms) (h1 : Pointwise SplitModule ms S.modules)
    (h2 : Pointwise OrderedModule S.modules out.modules) (hO : StoredTree S out) : Compilable out :=
  have hK := keptTree h.plain ha hc hperm hO h1 h2
  ⟨output_names h hs hc.toCompilableSourceNames hK, output_order h ha hc hperm hfirst h1 h2 hK⟩

end FastBer.Ast
