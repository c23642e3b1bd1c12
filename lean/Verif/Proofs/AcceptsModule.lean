import Verif.Proofs.Accepts
/-!
# A module after splitting
-/
namespace FastBer.Ast
open FastBer.Ast.Spec

theorem uses_child {own : Name} {t u : AType} (hc : Child t u) {v : Name} (h : Uses own (fun _ => True) (fun t => t = .leaf .enumerated) u v) :
    Uses own (fun _ => True) (fun t => t = .leaf .enumerated) t v := by
  cases hc with
  | choice ha => exact .choice trivial ha h
  | sequence hc => exact .sequence hc (fun _ => trivial) h
  | set hc => exact .set hc (fun _ => trivial) h
  | seqOf => exact .seqOf trivial h
  | setOf => exact .setOf trivial h
  | prefixed => exact .prefixed h

theorem uses_within {own : Name} {t u : AType} (hw : Within t u) {v : Name} (h : Uses own (fun _ => True) (fun t => t = .leaf .enumerated) u v) :
    Uses own (fun _ => True) (fun t => t = .leaf .enumerated) t v := by
  rcases hw with rfl | hw
  · exact h
  · unfold Inside at hw
    induction hw with
    | single hc => exact uses_child hc h
    | tail _ hc ih => exact ih (uses_child hc h)

theorem occurs_within {src : Tree} {m : Module} {t u : AType} (hw : Within t u) (h : Occurs src m t) : Occurs src m u := by
  rcases hw with rfl | hw
  · exact h
  · unfold Inside at hw
    induction hw with
    | single hc => exact occurs_child h hc
    | tail _ hc ih => exact occurs_child ih hc

theorem pushed_madeUp {own : Name} {t : AType} {k : Nat} {p : Name × AType} (h : p ∈ (findNested own t k).2.1) : MadeUp p.1 := by
  obtain ⟨_, _, hm⟩ := (findNested_splits own t k).names.mem (List.mem_map_of_mem h)
  exact hm.madeUp

/-- Where an assignment of a type comes from. -/
theorem split_from (own : Name) (as : List Assignment) (k : Nat) {a' : Assignment} (ha : a' ∈ (splitAssignments own as k).1) {t' : AType} (hb : a'.body = .type t') :
    ∃ a ∈ as, ∃ t u i, a.body = .type t ∧ Within t u ∧ t' = (findNested own u i).1 ∧
      (∀ p ∈ (findNested own u i).2.1, ∃ b ∈ (splitAssignments own as k).1, b.name = p.1 ∧ b.body = .type p.2) ∧ (a'.name = a.name ∧ u = t ∨ MadeUp a'.name) := by
  obtain ⟨a, h1, t, j, h2, h3, h4⟩ := splitAssignments_from own as k ha hb
  rcases h3 with ⟨h3, h5⟩ | h3
  · exact ⟨a, h1, t, t, j, h2, .inl rfl, h5, h4, .inl ⟨h3, rfl⟩⟩
  · obtain ⟨u, i, h5, h6, h7⟩ := findNested_pushed (own := own) (P := Within t) (fun x y hx hy => within_trans hx (.inr (.single hy))) t j (.inl rfl) _ h3
    exact ⟨a, h1, t, u, i, h2, h5, h6, fun p hp => h4 p (h7 p hp), .inr (pushed_madeUp h3)⟩

theorem ownNames_eq (m : Module) : ownNames m = (splitImports m.assignments m.imports).map (·.name) := by
  unfold ownNames splitImports
  rw [List.map_append, List.map_flatMap]
  congr 1
  congr 1
  funext i
  rw [List.map_map]
  exact (List.map_id _).symm

section
variable {src : Tree} (hp : PlainSource src) (ha : Accepted src) {m : Module} (hm : m ∈ src.modules) (j : Nat)
include hp ha hm

theorem alias_foreign {i : Import} (hi : i ∈ m.imports) : i.module ≠ m.name := fun e => ha.cycles ⟨m.name, .single ⟨m, hm, rfl, i, hi, e⟩⟩

theorem alias_uses {i : Import} (hi : i ∈ m.imports) {n v : Name} (h : Uses m.name (fun _ => True) (fun t => t = .leaf .enumerated) (.defined (some i.module) n []) v) : False := by
  cases h with
  | reference h =>
    rcases h with h | h
    · cases h
    · exact alias_foreign hp ha hm hi (Option.some.inj h)

theorem ownNames_notMadeUp {n : Name} (h : n ∈ ownNames m) : ¬ MadeUp n := by
  rcases List.mem_append.1 h with h | h
  · obtain ⟨a, h1, rfl⟩ := List.mem_map.1 h
    exact hp.names m hm a h1
  · obtain ⟨i, h1, h2⟩ := List.mem_flatMap.1 h
    exact hp.importNames m hm i h1 n h2

theorem ownNames_kept {n : Name} (h : n ∈ ownNames m) : n ∈ ((splitAssignments m.name (splitImports m.assignments m.imports) j).1).map (·.name) := by
  rw [ownNames_eq] at h
  exact (splitAssignments_splits _ _ _).kept.subset h

theorem split_nodup : (((splitAssignments m.name (splitImports m.assignments m.imports) j).1).map (·.name)).Nodup := by
  refine splitAssignments_nodup (by rw [← ownNames_eq]; exact ha.names m hm) fun a h => ?_
  exact ownNames_notMadeUp hp ha hm (by rw [ownNames_eq]; exact List.mem_map_of_mem h)

/-- What is mentioned by the type of an assignment or import. -/
theorem type_mentions {a : Assignment} (h : a ∈ splitImports m.assignments m.imports) {t : AType} (hb : a.body = .type t) {v : Name}
    (hu : Uses m.name (fun _ => True) (fun t => t = .leaf .enumerated) t v) : a ∈ m.assignments ∧ v ∈ ownNames m := by
  rcases mem_splitImports h with h | ⟨i, hi, n, hn, rfl⟩
  · exact ⟨h, ha.mentions m hm a h v (by rw [hb]; exact .type hu)⟩
  · cases hb
    exact (alias_uses hp ha hm hi hu).elim

/-- Everything mentioned is there. -/
theorem split_mentions : ∀ a' ∈ (splitAssignments m.name (splitImports m.assignments m.imports) j).1, ∀ n, Mentions m.name a'.body n →
    n ∈ ((splitAssignments m.name (splitImports m.assignments m.imports) j).1).map (·.name) := by
  intro a' ha' n hn
  by_cases hb : ∃ t', a'.body = .type t'
  · obtain ⟨t', hb⟩ := hb
    obtain ⟨a, h1, t, u, i, h2, h3, rfl, h4, -⟩ := split_from _ _ _ ha' hb
    rw [hb] at hn
    cases hn with
    | type hn =>
      refine nested_uses (A := fun n => n ∈ ((splitAssignments m.name (splitImports m.assignments m.imports) j).1).map (·.name)) u i ?_ ?_ n hn
      · intro p hp _
        obtain ⟨b, h5, h6, -⟩ := h4 p hp
        exact List.mem_map.2 ⟨b, h5, h6⟩
      · intro v hv
        exact ownNames_kept hp ha hm j (type_mentions hp ha hm h1 h2 (uses_within h3 hv)).2
  · rcases splitAssignments_bodies ha' with h | ⟨h, -⟩
    · rcases mem_splitImports h with h | ⟨i, hi, n', hn', rfl⟩
      · exact ownNames_kept hp ha hm j (ha.mentions m hm a' h n hn)
      · exact absurd ⟨_, rfl⟩ hb
    · exact absurd h hb

/-- The components of a SEQUENCE or SET. -/
theorem split_components {a' : Assignment} (ha' : a' ∈ (splitAssignments m.name (splitImports m.assignments m.imports) j).1) {cs' : List Comp}
    (hc : components a'.body = some cs') : ∃ a ∈ m.assignments, ∃ t u cs e i, a.body = .type t ∧ Within t u ∧ a'.body = .type (findNested m.name u i).1 ∧
      (u = .sequence cs e ∨ u = .set cs e) ∧ cs' = (findNestedComps m.name cs i).1 ∧
      (∀ p ∈ (findNestedComps m.name cs i).2.1, ∃ b ∈ (splitAssignments m.name (splitImports m.assignments m.imports) j).1, b.name = p.1 ∧ b.body = .type p.2) ∧
      (a'.name = a.name ∧ u = t ∨ MadeUp a'.name) := by
  have hb : ∃ t', a'.body = .type t' := by
    unfold components at hc
    split at hc <;> first | exact ⟨_, by assumption⟩ | cases hc
  obtain ⟨t', hb⟩ := hb
  obtain ⟨a, h1, t, u, i, h2, h3, rfl, h4, h5⟩ := split_from _ _ _ ha' hb
  rw [hb] at hc
  have hin : a ∈ m.assignments := by
    rcases mem_splitImports h1 with h | ⟨i', hi, n, hn, rfl⟩
    · exact h
    · cases h2
      rcases within_cases h3 with rfl | ⟨c, hc', -⟩
      · cases hc
      · cases hc'
  cases u with
  | sequence cs e =>
    cases hc
    exact ⟨a, hin, t, _, cs, e, i, h2, h3, hb, .inl rfl, rfl, h4, h5⟩
  | set cs e =>
    cases hc
    exact ⟨a, hin, t, _, cs, e, i, h2, h3, hb, .inr rfl, rfl, h4, h5⟩
  | leaf | objField | defined | choice | seqOf | setOf | prefixed => cases hc

theorem split_local : LocalComponents m.name (splitAssignments m.name (splitImports m.assignments m.imports) j).1 := by
  intro a' ha' cs' hc c' hc' q n ps hr
  obtain ⟨a, h1, t, u, cs, e, i, h2, h3, -, h4, rfl, -⟩ := split_components hp ha hm j ha' hc
  obtain ⟨c, hcm, h5 | h5⟩ := nestedComps_refs cs i c' hc' hr
  · exact ha.external m u cs e (occurs_within h3 (.assigned hm h1 h2)) h4 c hcm q n ps h5
  · exact .inr h5

theorem split_setDefaults : NoSetDefaults (splitAssignments m.name (splitImports m.assignments m.imports) j).1 := by
  rintro a' ha' t' hb ⟨cs', e', rfl, c', hc', v, hv⟩
  obtain ⟨a, h1, t, u, cs, e, i, h2, h3, h6, h4, rfl, -⟩ := split_components hp ha hm j ha' (by rw [hb]; rfl)
  obtain ⟨x, hx⟩ := List.getElem?_of_mem hc'
  obtain ⟨c, k, h7, rfl, -⟩ := findNestedComps_get _ _ _ hx
  rw [hb] at h6
  rcases h4 with rfl | rfl
  · cases h6
  · exact ha.setDefaults m _ (occurs_within h3 (.assigned hm h1 h2)) ⟨cs, e, rfl, c, List.mem_of_getElem? h7, v, hv⟩

omit hp ha hm in
theorem _root_.FastBer.Ast.Spec.HardUse.mentioned' {tree : Tree} {own : Name} {as : List Assignment} {n v : Name} (h : HardUse tree own as n v) :
    ∃ a ∈ as, a.name = n ∧ Mentions own a.body v := by
  have hbody : ∀ {a : Assignment} {cs : List Comp}, components a.body = some cs → ∃ e, a.body = .type (.sequence cs e) ∨ a.body = .type (.set cs e) := by
    intro a cs h
    unfold components at h
    split at h
    · rename_i hb; cases h; exact ⟨_, .inl hb⟩
    · rename_i hb; cases h; exact ⟨_, .inr hb⟩
    · cases h
  cases h with
  | component ha hc hcm _ hu =>
    refine ⟨_, ha, rfl, ?_⟩
    cases hu with
    | type hu =>
      obtain ⟨e, h | h⟩ := hbody hc
      · rw [h]; exact .type (.sequence hcm (fun _ => trivial) hu)
      · rw [h]; exact .type (.set hcm (fun _ => trivial) hu)
  | default ha hc hcm hd he =>
    refine ⟨_, ha, rfl, ?_⟩
    obtain ⟨e, h | h⟩ := hbody hc
    · rw [h]; exact .type (.sequenceDefault hcm hd fun e => he (.inl e))
    · rw [h]; exact .type (.setDefault hcm hd fun e => he (.inl e))
  | other ha _ _ hu => exact ⟨_, ha, rfl, hu⟩

theorem requires_acc (n : Name) : Acc (fun x y => Requires m.name m.assignments y x) n := by
  refine acc_of_no_cycle (m.assignments.map (·.name)) ?_ (ha.recursion m hm) n
  intro a b h
  cases h with
  | component h => exact List.mem_map_of_mem h
  | default h => exact List.mem_map_of_mem h
  | other h => exact List.mem_map_of_mem h

/-- A name the compiler has made up requires only what is inside. -/
theorem piece_acc {tree : Tree} {b : Assignment} (hb : b ∈ (splitAssignments m.name (splitImports m.assignments m.imports) j).1) {t' : AType} (ht : b.body = .type t')
    (h : ∀ w, Uses m.name (fun _ => True) (fun t => t = .leaf .enumerated) t' w →
      Acc (fun x y => HardUse tree m.name (splitAssignments m.name (splitImports m.assignments m.imports) j).1 y x) w) :
    Acc (fun x y => HardUse tree m.name (splitAssignments m.name (splitImports m.assignments m.imports) j).1 y x) b.name := by
  refine ⟨_, fun w hw => ?_⟩
  obtain ⟨a, h1, h2, h3⟩ := hw.mentioned'
  have := (find_key (pairwise_nodup.1 (split_nodup hp ha hm j)) h1 h2).symm.trans (find_key (pairwise_nodup.1 (split_nodup hp ha hm j)) hb rfl)
  cases this
  rw [ht] at h3
  cases h3 with
  | type h3 => exact h w h3

theorem original_acc {tree : Tree} (n : Name) (hn : ¬ MadeUp n) : Acc (fun x y => HardUse tree m.name (splitAssignments m.name (splitImports m.assignments m.imports) j).1 y x) n := by
  have hacc := requires_acc hp ha hm n
  induction hacc with
  | intro n _ ih =>
    have ih' : ∀ v, Requires m.name m.assignments n v → v ∈ ownNames m → Acc (fun x y => HardUse tree m.name (splitAssignments m.name (splitImports m.assignments m.imports) j).1 y x) v :=
      fun v h1 h2 => ih v h1 (ownNames_notMadeUp hp ha hm h2)
    refine ⟨_, fun w hw => ?_⟩
    cases hw with
    | @component a' cs' c' _ ha' hc hcm hf hu =>
      obtain ⟨a, h1, t, u, cs, e, i, h2, h3, -, h4, rfl, h5, h6⟩ := split_components hp ha hm j ha' hc
      obtain ⟨h6', rfl⟩ := h6.resolve_right hn
      obtain ⟨x, hx⟩ := List.getElem?_of_mem hcm
      obtain ⟨c, k, h7, rfl, h8⟩ := findNestedComps_get _ _ _ hx
      have hcomp : components a.body = some cs := by rw [h2]; rcases h4 with rfl | rfl <;> rfl
      cases hu with
      | type hu =>
        refine nested_uses (A := fun w => Acc (fun x y => HardUse tree m.name (splitAssignments m.name (splitImports m.assignments m.imports) j).1 y x) w) c.type k ?_ ?_ w hu
        · intro p hp' hq
          obtain ⟨b, hb1, hb2, hb3⟩ := h5 p (h8 p hp')
          rw [← hb2]
          exact piece_acc hp ha hm j hb1 hb3 hq
        · intro v hv
          have hcs : Child u c.type := by
            rcases h4 with rfl | rfl
            · exact .sequence (List.mem_of_getElem? h7)
            · exact .set (List.mem_of_getElem? h7)
          refine ih' v (by rw [h6']; exact .component h1 hcomp (List.mem_of_getElem? h7) hf (.type hv)) ?_
          exact ha.mentions m hm a h1 v (by rw [h2]; exact .type (uses_child hcs hv))
    | @default a' cs' c' _ ha' hc hcm hd he =>
      obtain ⟨a, h1, t, u, cs, e, i, h2, h3, -, h4, rfl, h5, h6⟩ := split_components hp ha hm j ha' hc
      obtain ⟨h6', rfl⟩ := h6.resolve_right hn
      obtain ⟨x, hx⟩ := List.getElem?_of_mem hcm
      obtain ⟨c, k, h7, rfl, h8⟩ := findNestedComps_get _ _ _ hx
      have hcomp : components a.body = some cs := by rw [h2]; rcases h4 with rfl | rfl <;> rfl
      have hne : c.type ≠ .leaf .enumerated := fun e => he (.inl (by show (findNested m.name c.type k).1 = _; rw [e]; rfl))
      refine ih' w (by rw [h6']; exact .default h1 hcomp (List.mem_of_getElem? h7) hd hne) ?_
      refine ha.mentions m hm a h1 w ?_
      rw [h2]
      rcases h4 with rfl | rfl
      · exact .type (.sequenceDefault (List.mem_of_getElem? h7) hd hne)
      · exact .type (.setDefault (List.mem_of_getElem? h7) hd hne)
    | @other a' _ ha' hc hr hu =>
      by_cases hb : ∃ t', a'.body = .type t'
      · obtain ⟨t', hb⟩ := hb
        obtain ⟨a, h1, t, u, i, h2, h3, rfl, h4, h5⟩ := split_from _ _ _ ha' hb
        obtain ⟨h5', rfl⟩ := h5.resolve_right hn
        rw [hb] at hu hc hr
        cases hu with
        | type hu =>
          refine nested_uses (A := fun w => Acc (fun x y => HardUse tree m.name (splitAssignments m.name (splitImports m.assignments m.imports) j).1 y x) w) u i ?_ ?_ w hu
          · intro p hp' hq
            obtain ⟨b, hb1, hb2, hb3⟩ := h4 p hp'
            rw [← hb2]
            exact piece_acc hp ha hm j hb1 hb3 hq
          · intro v hv
            obtain ⟨h6, h7⟩ := type_mentions hp ha hm h1 h2 hv
            refine ih' v ?_ h7
            rw [h5']
            refine .other h6 ?_ ?_ (by rw [h2]; exact .type hv)
            · rw [h2]
              cases u <;> first | rfl | cases hc
            · rw [h2]
              cases u <;> first | exact hr | exact fun h => h.elim | exact absurd trivial hr
      · have hin : a' ∈ m.assignments := by
          rcases splitAssignments_bodies ha' with h | ⟨h, -⟩
          · rcases mem_splitImports h with h | ⟨i, hi, n', hn', rfl⟩
            · exact h
            · exact absurd ⟨_, rfl⟩ hb
          · exact absurd h hb
        exact ih' w (.other hin hc hr hu) (ha.mentions m hm a' hin w hu)

theorem split_noCycle {tree : Tree} : ¬ IllegalCycle tree m.name (splitAssignments m.name (splitImports m.assignments m.imports) j).1 := by
  rintro ⟨n, hc⟩
  refine acc_no_cycle ?_ hc
  by_cases hn : MadeUp n
  · refine ⟨_, fun w hw => ?_⟩
    obtain ⟨a', h1, rfl, h3⟩ := hw.mentioned'
    have hb : ∃ t', a'.body = .type t' := by
      rcases splitAssignments_bodies h1 with h | ⟨h, -⟩
      · exact absurd hn (ownNames_notMadeUp hp ha hm (by rw [ownNames_eq]; exact List.mem_map_of_mem h))
      · exact h
    obtain ⟨t', hb⟩ := hb
    obtain ⟨a, k1, t, u, i, k2, k3, rfl, k4, -⟩ := split_from _ _ _ h1 hb
    rw [hb] at h3
    cases h3 with
    | type hu =>
      refine nested_uses (A := fun w => Acc (fun x y => HardUse tree m.name (splitAssignments m.name (splitImports m.assignments m.imports) j).1 y x) w) u i ?_ ?_ w hu
      · intro p hp' hq
        obtain ⟨b, hb1, hb2, hb3⟩ := k4 p hp'
        rw [← hb2]
        exact piece_acc hp ha hm j hb1 hb3 hq
      · intro v hv
        exact original_acc hp ha hm j v (ownNames_notMadeUp hp ha hm (type_mentions hp ha hm k1 k2 (uses_within k3 hv)).2)
  · exact original_acc hp ha hm j n hn

end

end FastBer.Ast
