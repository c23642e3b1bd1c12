import Verif.Proofs.Backwards
import Verif.Proofs.CompilesAll
import Verif.Spec.CompilableSource
/-!
# The conditions of C98 do not depend on the order of assignments
-/
namespace FastBer.Ast
open FastBer.Ast.Spec

theorem mem_ownNames_back {m : Module} {n : Name} : n ∈ ownNames (backM m) ↔ n ∈ ownNames m := by
  simp [ownNames, backM]

theorem nodup_ownNames_back {m : Module} (h : (ownNames (backM m)).Nodup) : (ownNames m).Nodup := by
  refine (List.Perm.nodup_iff ?_).1 h
  exact ((List.reverse_perm m.assignments).map _).append_right _

theorem requires_reverse {own : Name} {as : List Assignment} {u v : Name} (h : Requires own as u v) : Requires own as.reverse u v := by
  cases h with
  | component h1 h2 h3 h4 h5 => exact .component (List.mem_reverse.2 h1) h2 h3 h4 h5
  | default h1 h2 h3 h4 h5 => exact .default (List.mem_reverse.2 h1) h2 h3 h4 h5
  | other h1 h2 h3 h4 => exact .other (List.mem_reverse.2 h1) h2 h3 h4

theorem mentionedBy_reverse {own : Name} {as : List Assignment} {u v : Name} (h : MentionedBy own as u v) : MentionedBy own as.reverse u v := by
  obtain ⟨a, h1, h2⟩ := h
  exact ⟨a, List.mem_reverse.2 h1, h2⟩

theorem accepted_back {T : Tree} (h : Accepted T) : Accepted (backT T) where
  imports := fun m hm i hi => by
    obtain ⟨w, h1, h2⟩ := h.imports _ (of_mem_backT hm) i hi
    exact ⟨backM w, mem_backT h1, h2⟩
  cycles := fun ⟨n, hn⟩ => h.cycles ⟨n, transGen_mono (fun a b ⟨m, h1, h2, i, h3, h4⟩ => ⟨backM m, of_mem_backT h1, h2, i, h3, h4⟩) hn⟩
  names := fun m hm => nodup_ownNames_back (h.names _ (of_mem_backT hm))
  mentions := fun m hm a ha n hn => mem_ownNames_back.1 (h.mentions _ (of_mem_backT hm) a (List.mem_reverse.2 ha) n hn)
  valueTypes := fun m hm a ha q ref ps v hb => leads_back (h.valueTypes _ (of_mem_backT hm) a (List.mem_reverse.2 ha) q ref ps v hb)
  external := fun m t cs e ho => h.external (backM m) t cs e (occurs_unback ho)
  setDefaults := fun m t ho => h.setDefaults _ t (occurs_unback ho)
  recursion := fun m hm ⟨n, hn⟩ => h.recursion _ (of_mem_backT hm) ⟨n, transGen_mono (fun _ _ => requires_reverse) hn⟩

theorem called_unback {T : Tree} {m : Module} {n : Name} {t : AType} (h : Called (backT T) m n t) : Called T (backM m) n t := by
  cases h with
  | assigned h1 h2 h3 => exact .assigned (of_mem_backT h1) (List.mem_reverse.2 h2) h3
  | field h1 => exact .field (field_unback h1)

theorem compilableSourceNames_back {T : Tree} (hd : DistinctNames T) (h : CompilableSourceNames T) : CompilableSourceNames (backT T) where
  universal := fun m c n k t ho => h.universal _ c n k t (occurs_unback ho)
  storage := fun m t ho => h.storage _ t (occurs_unback ho)
  valueSets := fun m hm a ha => h.valueSets _ (of_mem_backT hm) a (List.mem_reverse.2 ha)
  external := fun m q ref ps ho => h.external (backM m) q ref ps (occurs_unback ho)
  direct := fun m q ref ps wm u ho hc hl => by
    rw [qualify_back, qualifyType_back] at hc
    obtain ⟨wm', u', h1, h2⟩ := (sim_unback _ m _).symm.core (corr_back (distinct_qualify hd)).symm hc
    have hu : isList u' = true ∨ u' = .leaf .enumerated := by
      rcases hl with hl | rfl
      · exact .inl ((h2.isStruct (core_isCore hc) (core_isCore h1)).2.symm.trans hl)
      · exact .inr (h2.leaf_of (core_isCore h1))
    obtain ⟨h3, a, ha, h4⟩ := h.direct (backM m) q ref ps wm' u' (occurs_unback ho) h1 hu
    exact ⟨h3, a, List.mem_reverse.1 ha, h4⟩
  importedEnums := fun m hm i hi n hn wm u hc he => by
    rw [qualify_back, qualifyType_back] at hc
    obtain ⟨wm', u', h1, h2⟩ := (sim_unback _ m _).symm.core (corr_back (distinct_qualify hd)).symm hc
    subst he
    exact h.importedEnums _ (of_mem_backT hm) i hi n hn wm' u' h1 (h2.leaf_of (core_isCore h1))
  assignedNames := fun m hm a ha => h.assignedNames _ (of_mem_backT hm) a (List.mem_reverse.2 ha)
  importedNames := fun m hm => h.importedNames (backM m) (of_mem_backT hm)
  fieldNames := fun m n t hf => h.fieldNames _ n t (field_unback hf)
  fieldEnds := fun m n t hf n' t' hf' => h.fieldEnds _ n t (field_unback hf) n' t' (field_unback hf')
  fieldMadeUp := fun m n t hf => h.fieldMadeUp _ n t (field_unback hf)
  sequence := fun m cs e ho => h.sequence _ cs e (occurs_unback ho)
  set := fun m cs e ho => h.set _ cs e (occurs_unback ho)
  choice := fun m as s ho => h.choice _ as s (occurs_unback ho)
  alternatives := fun m n as s a hc => h.alternatives _ n as s a (called_unback hc)
  sequenceNames := fun m n cs e c hc => h.sequenceNames _ n cs e c (called_unback hc)
  setNames := fun m n cs e c hc => h.setNames _ n cs e c (called_unback hc)

theorem compilableSource_back {T : Tree} (hd : DistinctNames T) (h : CompilableSource T) : CompilableSource (backT T) where
  toCompilableSourceNames := compilableSourceNames_back hd h.toCompilableSourceNames
  recursion := fun m hm ⟨n, hn⟩ => h.recursion _ (of_mem_backT hm) ⟨n, transGen_mono (fun _ _ => mentionedBy_reverse) hn⟩

theorem leadsToCycle_unback {m : Module} {n : Name} (h : LeadsToCycle m n) : LeadsToCycle (backM m) n := by
  obtain ⟨c, h1, h2⟩ := h
  exact ⟨c, h1.imp_right (transGen_mono fun _ _ => mentionedBy_reverse), transGen_mono (fun _ _ => mentionedBy_reverse) h2⟩

theorem rcompilableSource_back {T : Tree} (hd : DistinctNames T) (h : RCompilableSource T) : RCompilableSource (backT T) where
  toCompilableSourceNames := compilableSourceNames_back hd h.toCompilableSourceNames
  lists := fun m hm a ha t hb hl q ref ps hh wm u hc => by
    rw [qualify_back, qualifyType_back] at hc
    obtain ⟨wm', u', h1, h2⟩ := (sim_unback _ m _).symm.core (corr_back (distinct_qualify hd)).symm hc
    obtain ⟨h3, h4⟩ := h.lists _ (of_mem_backT hm) a (List.mem_reverse.2 ha) t hb (leadsToCycle_unback hl) q ref ps hh wm' u' h1
    refine ⟨(h2.isStruct (core_isCore hc) (core_isCore h1)).2.trans h3, ?_⟩
    rintro rfl
    exact h4 (h2.leaf_of (core_isCore h1))
  enums := fun m hm a ha t hb hl => h.enums _ (of_mem_backT hm) a (List.mem_reverse.2 ha) t hb (leadsToCycle_unback hl)

theorem defaultsTaken_back {lib : Lib} {T : Tree} (hd : DistinctNames T) (h : DefaultsTaken lib (qualify T)) : DefaultsTaken lib (qualify (backT T)) := by
  rw [qualify_back]
  exact defaultsTaken_stands (corr_back (distinct_qualify hd)) (stands_back _) h

/-- Names that are assigned are distinct. -/
theorem accepted_distinct {T : Tree} (h : Accepted T) : DistinctNames T := fun m hm => by
  have := (List.nodup_append.1 (h.names m hm)).1
  exact List.pairwise_map.1 this

end FastBer.Ast
