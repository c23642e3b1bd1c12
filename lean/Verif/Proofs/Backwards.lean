import Verif.Proofs.SimSupported
import Verif.Spec.SupportedSource
/-!
# The order of the assignments of a module has no meaning

The parser keeps them in reverse.  If their names are distinct, everything the specifications say of a source holds of the reversed source.
-/
namespace FastBer.Ast
open Spec FastBer.Spec

/-- The module with its assignments in reverse. -/
def backM (m : Module) : Module := { m with assignments := m.assignments.reverse }

/-- The same for all modules. -/
def backT (T : Tree) : Tree := ⟨T.modules.map backM⟩

/-- X.680: names of the assignments of a module are distinct. -/
def DistinctNames (T : Tree) : Prop := ∀ m ∈ T.modules, m.assignments.Pairwise fun a b => a.name ≠ b.name

theorem backM_backM (m : Module) : backM (backM m) = m := by simp [backM]

theorem backT_backT (T : Tree) : backT (backT T) = T := by
  obtain ⟨ms⟩ := T
  simp only [backT, List.map_map]
  congr 1
  have : backM ∘ backM = id := funext backM_backM
  rw [this, List.map_id]

theorem mem_backT {T : Tree} {m : Module} (h : m ∈ T.modules) : backM m ∈ (backT T).modules := List.mem_map_of_mem h

theorem of_mem_backT {T : Tree} {m : Module} (h : m ∈ (backT T).modules) : backM m ∈ T.modules := by
  have := mem_backT h
  rwa [backT_backT] at this

theorem distinct_backT {T : Tree} (h : DistinctNames T) : DistinctNames (backT T) := by
  intro m hm
  have := h _ (of_mem_backT hm)
  have h' := List.pairwise_reverse.2 (this.imp fun hne => Ne.symm hne)
  simpa [backM] using h'

theorem find_last {as : List Assignment} (h : as.Pairwise fun a b => a.name ≠ b.name) (n : Name) :
    as.reverse.find? (·.name == n) = as.find? (·.name == n) := by
  induction as with
  | nil => rfl
  | cons a as ih =>
    obtain ⟨h1, h2⟩ := List.pairwise_cons.1 h
    rw [List.reverse_cons, List.find?_append, ih h2, List.find?_cons]
    by_cases hn : a.name == n
    · have : as.find? (·.name == n) = none := by
        rw [List.find?_eq_none]
        intro b hb hbn
        exact h1 b hb ((beq_iff_eq.1 hn).trans (beq_iff_eq.1 hbn).symm)
      simp [this, hn]
    · simp [hn]

theorem find_module (T : Tree) (n : Name) : (backT T).modules.find? (·.name == n) = (T.modules.find? (·.name == n)).map backM := by
  simp only [backT]
  rw [List.find?_map]
  rfl

theorem find_backT {T : Tree} (h : DistinctNames T) {n r : Name} {m : Module} (hm : T.modules.find? (·.name == n) = some m) :
    (backM m).assignments.find? (·.name == r) = m.assignments.find? (·.name == r) :=
  find_last (h m (List.mem_of_find?_eq_some hm)) r

theorem target_backT {T : Tree} (h : DistinctNames T) (m : Module) (q : Option Name) (ref : Name) :
    target (backT T) (backM m) q ref = (target T m q ref).map fun p => (backM p.1, p.2) := by
  unfold target
  rw [find_module]
  show (Option.map backM (T.modules.find? (·.name == q.getD m.name)) >>= _) = _
  cases hm : T.modules.find? (·.name == q.getD m.name) with
  | none => rfl
  | some wm =>
    show (List.find? _ (backM wm).assignments >>= _) = _
    rw [find_backT h hm]
    show _ = Option.map _ (List.find? (·.name == ref) wm.assignments >>= _)
    cases ha : wm.assignments.find? (·.name == ref) with
    | none => rfl
    | some a =>
      obtain ⟨n, b, ps⟩ := a
      cases b <;> rfl

theorem lookup_backT {T : Tree} (h : DistinctNames T) (mod ref : Name) : lookup (backT T) mod ref = lookup T mod ref := by
  unfold lookup
  rw [find_module]
  cases hm : T.modules.find? (·.name == mod) with
  | none => rfl
  | some wm =>
    show Option.map _ (List.find? _ (backM wm).assignments) = Option.map _ _
    rw [find_backT h hm]

/-! ## Types mean the same -/

/-- A reference corresponds to itself. -/
def BackRel : RefRel := fun m1 q r m2 q' r' => m2 = backM m1 ∧ q' = q ∧ r' = r

theorem sim_back (T : Tree) (m : Module) (t : AType) : Sim T (backT T) BackRel m t (backM m) t := by
  match t with
  | .leaf k => exact .leaf ..
  | .objField .. => exact .objField ..
  | .defined q ref ps => exact .defined ⟨rfl, rfl, rfl⟩
  | .choice as s =>
    refine .choice s s rfl rfl (fun i a a' h h' => ?_) (fun i a a' h h' => ?_)
    · rw [h] at h'; cases h'; exact ⟨rfl, rfl⟩
    · have hm := List.mem_of_getElem? h
      have := List.sizeOf_lt_of_mem hm
      have : sizeOf a.type < sizeOf a := by cases a; simp [Named.type]; omega
      rw [h] at h'; cases h'; exact sim_back T m a.type
  | .sequence cs e =>
    refine .sequence e rfl rfl (fun i a a' h h' => ?_) (fun i a a' h h' => ?_)
    · rw [h] at h'; cases h'; exact ⟨rfl, rfl, rfl, rfl⟩
    · have hm := List.mem_of_getElem? h
      have := List.sizeOf_lt_of_mem hm
      have : sizeOf a.type < sizeOf a := by cases a; simp [Comp.type]; omega
      rw [h] at h'; cases h'; exact sim_back T m a.type
  | .set cs e =>
    refine .set e rfl rfl (fun i a a' h h' => ?_) (fun i a a' h h' => ?_)
    · rw [h] at h'; cases h'; exact ⟨rfl, rfl, rfl, rfl⟩
    · have hm := List.mem_of_getElem? h
      have := List.sizeOf_lt_of_mem hm
      have : sizeOf a.type < sizeOf a := by cases a; simp [Comp.type]; omega
      rw [h] at h'; cases h'; exact sim_back T m a.type
  | .seqOf n t s => exact .seqOf _ _ _ _ (sim_back T m t)
  | .setOf n t s => exact .setOf _ _ _ _ (sim_back T m t)
  | .prefixed c n k t => exact .prefixed c n k rfl (sim_back T m t)
termination_by sizeOf t

theorem corr_back {T : Tree} (h : DistinctNames T) : Corr T (backT T) BackRel where
  fwd := by
    rintro m1 q r m2 q' r' w u ⟨rfl, rfl, rfl⟩ ht
    refine ⟨backM w, u, ?_, sim_back T w u⟩
    rw [target_backT h, ht]; rfl
  bwd := by
    rintro m1 q r m2 q' r' w' u' ⟨rfl, rfl, rfl⟩ ht
    rw [target_backT h] at ht
    obtain ⟨⟨w, u⟩, h1, h2⟩ := Option.map_eq_some_iff.1 ht
    cases h2
    exact ⟨w, u, h1, sim_back T w u⟩

/-! ## Types that are written -/

theorem occurs_back {T : Tree} {m : Module} {t : AType} (h : Occurs T m t) : Occurs (backT T) (backM m) t := by
  induction h with
  | assigned hm ha hb => exact .assigned (mem_backT hm) (List.mem_reverse.2 ha) hb
  | sequence _ h ih => exact .sequence ih h
  | set _ h ih => exact .set ih h
  | choice _ h ih => exact .choice ih h
  | seqOf _ ih => exact .seqOf ih
  | setOf _ ih => exact .setOf ih
  | prefixed _ ih => exact .prefixed ih

theorem occurs_unback {T : Tree} {m : Module} {t : AType} (h : Occurs (backT T) m t) : Occurs T (backM m) t := by
  have := occurs_back h
  rwa [backT_backT] at this

theorem field_unback {T : Tree} {m : Module} {n : Name} {t : AType} (h : Spec.Field (backT T) m n t) : Spec.Field T (backM m) n t := by
  cases h with
  | sequence h h' => exact .sequence (occurs_unback h) h'
  | set h h' => exact .set (occurs_unback h) h'
  | choice h h' => exact .choice (occurs_unback h) h'

theorem stands_back (T : Tree) : Stands T (backT T) BackRel := by
  intro m t ho hn
  have := sim_back T (backM m) t
  rw [backM_backM] at this
  exact ⟨backM m, t, occurs_unback ho, hn, this⟩

/-! ## The source with the module of every reference -/

theorem originFrom_back (T : Tree) : ∀ (k : Nat) (mod ref : Name), originFrom (backT T) k mod ref = originFrom T k mod ref := by
  intro k
  induction k with
  | zero => intros; rfl
  | succ k ih =>
    intro mod ref
    unfold originFrom
    rw [find_module]
    cases hm : T.modules.find? (·.name == mod) with
    | none => rfl
    | some m =>
      show (if (backM m).assignments.any (·.name == ref) then _ else _) = _
      have : (backM m).assignments.any (·.name == ref) = m.assignments.any (·.name == ref) := by simp [backM]
      rw [this]
      show (if _ then _ else match m.imports.find? (fun i : Import => i.types.contains ref) with | none => mod | some i => originFrom (backT T) k i.module ref) = _
      simp only [ih]
      rfl

theorem origin_back (T : Tree) (mod ref : Name) : origin (backT T) mod ref = origin T mod ref := by
  unfold origin
  rw [originFrom_back]
  simp [backT]

mutual
theorem qualifyType_back (T : Tree) (own : Name) : ∀ t, qualifyType (backT T) own t = qualifyType T own t
  | .leaf k => rfl
  | .objField .. => rfl
  | .defined q ref ps => by simp only [qualifyType, origin_back]
  | .choice as s => by simp only [qualifyType, qualifyAlts_back T own as]
  | .sequence cs e => by simp only [qualifyType, qualifyComps_back T own cs]
  | .set cs e => by simp only [qualifyType, qualifyComps_back T own cs]
  | .seqOf n t s => by simp only [qualifyType, qualifyType_back T own t]
  | .setOf n t s => by simp only [qualifyType, qualifyType_back T own t]
  | .prefixed c n k t => by simp only [qualifyType, qualifyType_back T own t]
theorem qualifyAlts_back (T : Tree) (own : Name) : ∀ as, qualifyAlts (backT T) own as = qualifyAlts T own as
  | [] => rfl
  | .mk n t :: as => by simp only [qualifyAlts, qualifyType_back T own t, qualifyAlts_back T own as]
theorem qualifyComps_back (T : Tree) (own : Name) : ∀ cs, qualifyComps (backT T) own cs = qualifyComps T own cs
  | [] => rfl
  | .mk n t o d co s :: cs => by simp only [qualifyComps, qualifyType_back T own t, qualifyComps_back T own cs]
end

theorem qualifyModule_back (T : Tree) (m : Module) : qualifyModule (backT T) (backM m) = backM (qualifyModule T m) := by
  have : qualifyAssignment (backT T) m.name = qualifyAssignment T m.name := by
    funext a
    unfold qualifyAssignment
    simp only [qualifyType_back]
  unfold qualifyModule backM
  simp [this]

theorem qualify_back (T : Tree) : qualify (backT T) = backT (qualify T) := by
  unfold qualify
  simp only [backT, List.map_map]
  congr 1
  refine List.map_congr_left fun m _ => ?_
  exact qualifyModule_back T m

theorem distinct_qualify {T : Tree} (h : DistinctNames T) : DistinctNames (qualify T) := by
  intro m hm
  obtain ⟨m0, h0, rfl⟩ := List.mem_map.1 hm
  have hn : ∀ a, (qualifyAssignment T m0.name a).name = a.name := by
    intro a
    unfold qualifyAssignment
    split <;> rfl
  refine List.pairwise_map.2 ((h m0 h0).imp fun hab => ?_)
  rw [hn, hn]; exact hab

/-! ## The conditions -/

theorem leads_back {T : Tree} {mod ref : Name} (h : Leads T mod ref) : Leads (backT T) mod ref := by
  obtain ⟨m, h1, h2, a, h3, h4⟩ := h
  exact ⟨backM m, mem_backT h1, by rw [origin_back]; exact h2, a, List.mem_reverse.2 h3, h4⟩

theorem plain_back {T : Tree} (h : PlainSource T) : PlainSource (backT T) where
  modules := List.pairwise_map.2 h.modules
  params := fun m hm a ha => h.params _ (of_mem_backT hm) a (List.mem_reverse.2 ha)
  arguments := fun m q ref ps ho => h.arguments _ q ref ps (occurs_unback ho)
  componentsOf := fun m t ho => h.componentsOf _ t (occurs_unback ho)
  classes := fun m hm a ha => h.classes _ (of_mem_backT hm) a (List.mem_reverse.2 ha)
  objects := fun m q c fs ho => h.objects _ q c fs (occurs_unback ho)
  names := fun m hm a ha => h.names _ (of_mem_backT hm) a (List.mem_reverse.2 ha)
  importNames := fun m hm => h.importNames (backM m) (of_mem_backT hm)
  references := fun m q ref ps ho => leads_back (h.references (backM m) q ref ps (occurs_unback ho))
  imports := fun m hm i hi n hn => leads_back (h.imports _ (of_mem_backT hm) i hi n hn)

theorem sourceRefOk_back {T : Tree} (hd : DistinctNames T) {cur mod ref : Name} (h : SourceRefOk T cur mod ref) : SourceRefOk (backT T) cur mod ref := by
  induction h with
  | here h1 h2 => exact .here (by rw [lookup_backT hd]; exact h1) h2
  | alias h1 _ ih => exact .alias (by rw [lookup_backT hd]; exact h1) ih
  | tagged h1 h2 _ ih => exact .tagged (by rw [lookup_backT hd]; exact h1) h2 ih
  | imported h1 h2 h3 _ ih => exact .imported (m := backM _) (mem_backT h1) h2 h3 ih

theorem sim_unback (T : Tree) (m : Module) (t : AType) : Sim T (backT T) BackRel (backM m) t m t := by
  have := sim_back T (backM m) t
  rwa [backM_backM] at this

theorem core_unback {T : Tree} (hd : DistinctNames T) {m wm : Module} {t u : AType} (h : Core (backT T) m t wm u) :
    ∃ wm' u', Core T (backM m) t wm' u' ∧ isStruct u' = isStruct u ∧ isList u' = isList u := by
  obtain ⟨wm', u', h1, h2⟩ := (sim_unback T m t).symm.core (corr_back hd).symm h
  obtain ⟨h3, h4⟩ := h2.isStruct (core_isCore h) (core_isCore h1)
  exact ⟨wm', u', h1, h3.symm, h4.symm⟩

theorem supported_back {T : Tree} (hd : DistinctNames T) (h : SupportedSource T) : SupportedSource (backT T) := by
  have hq := distinct_qualify hd
  refine ⟨fun m hm a ha => h.typeNames _ (of_mem_backT hm) a (List.mem_reverse.2 ha), fun m hm => h.importedNames (backM m) (of_mem_backT hm),
    fun m n t hf => h.fieldNames _ n t (field_unback hf), fun m n t hf hl a ha => h.listNames _ n t (field_unback hf) hl a (List.mem_reverse.2 ha),
    fun m n t hf => h.listImports (backM m) n t (field_unback hf), fun m n t hf => h.listMadeUp _ n t (field_unback hf), ?_, ?_, ?_, ?_, ?_, ?_, ?_, ?_, ?_, ?_, ?_, ?_⟩
  · intro m t ho
    rw [qualify_back] at ho ⊢
    exact (sim_unback _ m t).tagSafe (corr_back hq) (h.tags _ t (occurs_unback ho))
  · intro m q ref ps ho
    exact sourceRefOk_back hd (h.references (backM m) q ref ps (occurs_unback ho))
  · intro m hm i hi n hn
    exact sourceRefOk_back hd (h.imports _ (of_mem_backT hm) i hi n hn)
  · intro m c n k c' n' k' t ho
    exact h.twice _ c n k c' n' k' t (occurs_unback ho)
  · intro m q ref ps wm u ho hc hl
    rw [qualify_back, qualifyType_back] at hc
    obtain ⟨wm', u', h1, -, h2⟩ := core_unback hq hc
    exact h.foreignLists (backM m) q ref ps wm' u' (occurs_unback ho) h1 (h2.trans hl)
  · intro m hm i hi n hn wm u hc
    rw [qualify_back, qualifyType_back] at hc
    obtain ⟨wm', u', h1, -, h2⟩ := core_unback hq hc
    exact h2.symm.trans (h.importedLists _ (of_mem_backT hm) i hi n hn wm' u' h1)
  · intro m n t s ho hs
    rw [qualify_back] at ho hs
    exact h.elements _ n t s (occurs_unback ho) ((sim_unback _ m t).symm.taggedStruct (corr_back hq).symm hs)
  · intro m n t s ho hs
    rw [qualify_back] at ho hs
    exact h.setElements _ n t s (occurs_unback ho) ((sim_unback _ m t).symm.taggedStruct (corr_back hq).symm hs)
  · intro m n t hf
    rw [qualify_back] at hf
    exact h.autoUntagged (backM m) n t (field_unback hf)
  · intro m n t ts hf ha ho
    rw [qualify_back] at hf ho
    exact h.autoSingle (backM m) n t ts (field_unback hf) ha (((sim_unback _ m t).ownTags_iff (corr_back hq) ts).2 ho)
  · intro m n q ref ps wm u hf ha hc
    rw [qualify_back] at hf hc
    obtain ⟨wm', u', h1, h2, -⟩ := core_unback hq hc
    exact h2.symm.trans (h.autoReference (backM m) n q ref ps wm' u' (field_unback hf) ha h1)
  · intro m cs e c ho
    rw [qualify_back] at ho
    exact h.autoMandatory (backM m) cs e c (occurs_unback ho)

theorem legal_back {T : Tree} (hd : DistinctNames T) (h : Legal (qualify T)) : Legal (qualify (backT T)) := by
  rw [qualify_back]
  exact legal_stands (corr_back (distinct_qualify hd)) (stands_back _) h

theorem noBareChoice_back {T : Tree} (hd : DistinctNames T) (h : NoBareChoice (qualify T)) : NoBareChoice (qualify (backT T)) := by
  rw [qualify_back]
  exact noBareChoice_stands (corr_back (distinct_qualify hd)) (stands_back _) h

/-- The values of a type are the same, -/
theorem value_back {T : Tree} (hd : DistinctNames T) (P : Builtin → Bytes → Prop) (m : Module) (own : Name) (t : AType) (x : FastBer.Val) :
    Spec.Value P (qualify (backT T)) (qualifyModule (backT T) (backM m)) (qualifyType (backT T) own t) x ↔
      Spec.Value P (qualify T) (qualifyModule T m) (qualifyType T own t) x := by
  rw [qualify_back, qualifyModule_back, qualifyType_back]
  exact ((sim_back _ _ _).value_iff (corr_back (distinct_qualify hd)) P x).symm

/-- and so are their encodings. -/
theorem encodes_back {T : Tree} (hd : DistinctNames T) (r : Rules) (m : Module) (own : Name) (t : AType) (x : FastBer.Val) (e : Bytes) :
    Encodes r (qualify (backT T)) (qualifyModule (backT T) (backM m)) (qualifyType (backT T) own t) x e ↔
      Encodes r (qualify T) (qualifyModule T m) (qualifyType T own t) x e := by
  rw [qualify_back, qualifyModule_back, qualifyType_back]
  exact ((sim_back _ _ _).encodes_iff (corr_back (distinct_qualify hd)) r x e).symm

theorem taggedStruct_unback {T : Tree} (hd : DistinctNames T) {m : Module} {own : Name} {t : AType}
    (h : TaggedStruct (qualify (backT T)) (qualifyModule (backT T) (backM m)) (qualifyType (backT T) own t)) :
    TaggedStruct (qualify T) (qualifyModule T m) (qualifyType T own t) := by
  rw [qualify_back, qualifyModule_back, qualifyType_back] at h
  exact (sim_back _ _ _).symm.taggedStruct (corr_back (distinct_qualify hd)).symm h

end FastBer.Ast
