import Verif.Proofs.AcceptsModule
import Verif.Props.ObjectClass
/-!
# The passes before the generation of code accept the source
-/
namespace FastBer.Ast
open FastBer.Ast.Spec

theorem leads_own {src : Tree} (hd : src.modules.Pairwise fun a b => a.name ≠ b.name) {mod ref : Name} (h : Leads src mod ref) : ∃ w ∈ src.modules, w.name = mod ∧ ref ∈ ownNames w := by
  obtain ⟨m, hm, hn, a, ha, har, -⟩ := h
  unfold origin at hn
  have hhere : m.name = mod → ∃ w ∈ src.modules, w.name = mod ∧ ref ∈ ownNames w := fun e =>
    ⟨m, hm, e, List.mem_append_left _ (List.mem_map.2 ⟨a, ha, har⟩)⟩
  cases hl : src.modules.length with
  | zero => rw [List.length_eq_zero_iff.1 hl] at hm; cases hm
  | succ k =>
    rw [hl, originFrom] at hn
    split at hn
    · exact hhere hn
    · rename_i w hw
      have hwm := List.mem_of_find?_eq_some hw
      have hwn : w.name = mod := by simpa using List.find?_some hw
      split at hn
      · exact hhere hn
      · split at hn
        · exact hhere hn
        · rename_i i hi
          refine ⟨w, hwm, hwn, List.mem_append_right _ (List.mem_flatMap.2 ⟨i, List.mem_of_find?_eq_some hi, ?_⟩)⟩
          simpa using List.find?_some hi

theorem splitLoop_of : ∀ (ms : List Module) (k : Nat), (∀ m ∈ ms, (ownNames m).Nodup) → ∃ out, splitLoop ms k = .ok out
  | [], _, _ => ⟨_, rfl⟩
  | m :: ms, k, h => by
    obtain ⟨out, ho⟩ := splitLoop_of ms (splitAssignments m.name (splitImports m.assignments m.imports) k).2 fun m hm => h m (List.mem_cons_of_mem _ hm)
    refine ⟨{ m with assignments := (splitAssignments m.name (splitImports m.assignments m.imports) k).1 } :: out, ?_⟩
    rw [splitLoop]
    dsimp only
    rw [(Props.C56_duplicates _).1.2, Res.ok_bind, ho]
    · rfl
    · have := h m List.mem_cons_self
      rw [ownNames_eq] at this
      have := List.pairwise_iff_getElem.1 (List.pairwise_map.1 this)
      intro i j hi hj hne
      rcases Nat.lt_or_gt_of_ne hne with h | h
      · exact this i j hi hj h
      · exact fun e => this j i hj hi h e.symm

theorem refOk_lookup {T : Tree} {cur mod ref : Name} (h : RefOk T cur mod ref) : ∃ t, lookup T mod ref = some (.type t) := by
  cases h with
  | here h => exact ⟨_, h⟩
  | alias h => exact ⟨_, h⟩
  | tagged h => exact ⟨_, h⟩

theorem lookup_found {T : Tree} {mod ref : Name} {b : Body} (h : lookup T mod ref = some b) : ∃ m ∈ T.modules, m.name = mod ∧ ∃ a ∈ m.assignments, a.name = ref ∧ a.body = b := by
  obtain ⟨wm, a, h1, h2, h3⟩ := Ast.lookup_some.1 h
  unfold findModule at h1
  unfold findAssignment at h2
  split at h1
  · cases h1
    rename_i hf
    split at h2
    · cases h2
      rename_i hg
      exact ⟨_, List.mem_of_find?_eq_some hf, by simpa using List.find?_some hf, _, List.mem_of_find?_eq_some hg, by simpa using List.find?_some hg, h3⟩
    · cases h2
  · cases h1

theorem SplitTree.classesResolve {src S : Tree} (h : SplitTree src S) (hs : SupportedSource src) (ha : Accepted src) : ClassesResolve S where
  references := by
    intro m2 hm2 a' ha' q ref hr
    obtain ⟨⟨ps, hr⟩, -⟩ := hr
    rcases hr with hb | ⟨v, hb⟩
    · obtain ⟨t, ht⟩ := refOk_lookup ((h.supported hs).references m2 q ref ps (.assigned hm2 ha' hb))
      obtain ⟨w, h1, h2, b, h3, h4, -⟩ := lookup_found ht
      exact ⟨w, h1, h2, b, h3, h4⟩
    · obtain ⟨m, hm, hsp⟩ := h.only m2 hm2
      have hin : a' ∈ m.assignments := by
        obtain ⟨-, j, rfl⟩ := hsp
        rcases splitAssignments_bodies ha' with h | ⟨⟨t, h⟩, -⟩
        · rcases mem_splitImports h with h | ⟨i, hi, n', hn', rfl⟩
          · exact h
          · cases hb
        · rw [hb] at h; cases h
      obtain ⟨w, h1, h2, h3⟩ := leads_own h.plain.modules (ha.valueTypes m hm a' hin q ref ps v hb)
      obtain ⟨w2, h4, h5⟩ := h.split w h1
      obtain ⟨-, k, rfl⟩ := h5
      refine ⟨_, h4, ?_, ?_⟩
      · show w.name = _
        rw [h2, hsp.name]
      · obtain ⟨b, h6, h7⟩ := List.mem_map.1 (ownNames_kept h.plain ha h1 k h3)
        exact ⟨b, h6, h7⟩
  fields := fun m2 q c fs ho => by
    obtain ⟨-, m', -, -, -, -, hc⟩ := h.occurs ho
    exact absurd rfl (hc.noObject h.plain q c fs)

theorem SplitTree.distinctNames {src S : Tree} (h : SplitTree src S) : DistinctNames S where
  modules := h.modules
  assignments := h.distinct.assignments
  fields := fun mod cls fs hc => by
    obtain ⟨m, hm, -, a, ha, -, hb⟩ := hc
    exact absurd hb (h.classes m hm a ha fs)

theorem pointwise_concat {α β : Type} {r : α → β → Prop} {l : List α} {l' : List β} (h : Pointwise r l l') {k : List α} {k' : List β} (h' : Pointwise r k k') :
    Pointwise r (l ++ k) (l' ++ k') := by
  induction h with
  | nil => exact h'
  | cons h _ ih => exact .cons h ih

theorem storedModule_refl (m : Module) : StoredModule m m := ⟨m.assignments, rfl, .refl _⟩

theorem storedTree_of {S : Tree} (hd : Distinct S) {out : List Module} (h : Pointwise StoredModule S.modules out) : StoredTree S ⟨out⟩ := by
  refine ⟨hd, ?_, fun m hm => pointwise_left h hm, fun m' hm' => pointwise_right h hm'⟩
  rw [← pairwise_nodup]
  rw [pointwise_key h (key := Module.name) (key' := Module.name) (fun a b hab => by obtain ⟨as, rfl, -⟩ := hab; rfl)]
  exact pairwise_nodup.2 hd.modules

theorem reorderLoop_accepts {src S : Tree} (h : SplitTree src S) (hs : SupportedSource src) (ha : Accepted src) : ∀ (ms pre done : List Module), S.modules = pre ++ ms →
    Pointwise StoredModule pre done → ∃ f0, ∀ rf, f0 ≤ rf → ∃ out, reorderLoop rf done ms = .ok out := by
  intro ms
  induction ms with
  | nil => intro pre done _ _; exact ⟨0, fun _ _ => ⟨_, rfl⟩⟩
  | cons m2 ms ih =>
    intro pre done hS hp
    have hT : StoredTree S ⟨done ++ m2 :: ms⟩ := by
      refine storedTree_of h.distinct ?_
      rw [hS]
      exact pointwise_concat hp (Props.pointwise_refl storedModule_refl _)
    have hsup := hT.supported (h.supported hs)
    have hm2 : m2 ∈ S.modules := by rw [hS]; exact List.mem_append_right _ List.mem_cons_self
    have hm2T : m2 ∈ (Tree.mk (done ++ m2 :: ms)).modules := List.mem_append_right _ List.mem_cons_self
    obtain ⟨m, hm, hsp⟩ := h.only m2 hm2
    obtain ⟨out1, -, f1, hf1⟩ := Props.C54_accepts_partial ⟨done ++ m2 :: ms⟩ m2.name m2.assignments
      (by obtain ⟨-, j, rfl⟩ := hsp; exact split_nodup h.plain ha hm j)
      (by obtain ⟨-, j, rfl⟩ := hsp; exact split_mentions h.plain ha hm j)
      (by obtain ⟨-, j, rfl⟩ := hsp; exact split_local h.plain ha hm j)
      (by obtain ⟨-, j, rfl⟩ := hsp; exact split_setDefaults h.plain ha hm j)
      (by
        intro a hain cs hc c hcm v hv
        have ho : Occurs ⟨done ++ m2 :: ms⟩ m2 c.type := by
          unfold components at hc
          split at hc
          · rename_i hb; cases hc; exact .sequence (.assigned hm2T hain hb) hcm
          · rename_i hb; cases hc; exact .set (.assigned hm2T hain hb) hcm
          · cases hc
        obtain ⟨r, f0, hr⟩ := resolveType_settles hsup hm2T c.name c.type ho
        exact ⟨.ok r, ⟨by simp, f0, hr f0 (Nat.le_refl _)⟩, r, rfl⟩)
      (by obtain ⟨-, j, rfl⟩ := hsp; exact split_noCycle h.plain ha hm j)
    obtain ⟨f2, hf2⟩ := ih (pre ++ [m2]) (done ++ [{ m2 with assignments := out1 }]) (by rw [hS]; simp)
      (pointwise_concat hp (.cons ⟨out1, rfl, reorder_perm hf1⟩ .nil))
    refine ⟨max f1 f2, fun rf hrf => ?_⟩
    obtain ⟨out, ho⟩ := hf2 rf (by omega)
    refine ⟨out, ?_⟩
    rw [reorderLoop]
    have hle := reorderAssignments_le (tree := ⟨done ++ m2 :: ms⟩) (own := m2.name) (as := m2.assignments) (rf := f1) (rf' := rf) (by omega)
    rcases hle with hle | hle
    · rw [hf1] at hle; cases hle
    · rw [← hle, hf1, Res.ok_bind, ho]

/-- The passes before the generation of code end normally. -/
theorem frontEnd_accepts {src : Tree} (h : PlainSource src) (hs : SupportedSource src) (ha : Accepted src) :
    ∃ f0, ∀ rf, f0 ≤ rf → ∃ out, frontEnd rf src = .ok out := by
  have hdist : Props.DistinctModules src.modules := pairwise_nodup.2 h.modules
  obtain ⟨ms, hms⟩ := (Props.C55_cycles_partial src.modules hdist (fun m hm n ⟨i, hi, hn⟩ => hn ▸ ha.imports m hm i hi)).1.2 ha.cycles
  obtain ⟨hperm, -⟩ := reorderModules_ok hdist hms
  obtain ⟨ms2, hms2⟩ := splitLoop_of ms 0 fun m hm => ha.names m (hperm.mem_iff.1 hm)
  have hsp := splitLoop_ok hms2
  have hS : SplitTree src ⟨ms2⟩ := {
    plain := h
    modules := by
      rw [← pairwise_nodup]
      rw [pointwise_key hsp (key := Module.name) (key' := Module.name) (fun a b hab => by obtain ⟨-, j, rfl⟩ := hab; rfl)]
      exact (hperm.map Module.name).nodup_iff.2 hdist
    split := fun m hm => pointwise_left hsp (hperm.mem_iff.2 hm)
    only := fun m' hm' => by
      obtain ⟨m, hm, hr⟩ := pointwise_right hsp hm'
      exact ⟨m, hperm.mem_iff.1 hm, hr⟩ }
  obtain ⟨T4, h4⟩ := resolveObjectClasses_of hS.distinctNames (hS.classesResolve hs ha)
  have := resolveObjectClasses_plain hS.classes hS.params (fun m q c fs ho => by
    obtain ⟨-, m', -, -, -, -, hc⟩ := hS.occurs ho
    exact hc.noObject h q c fs rfl) h4
  subst this
  obtain ⟨f0, hf0⟩ := reorderLoop_accepts hS hs ha ms2 [] [] rfl .nil
  refine ⟨f0, fun rf hrf => ?_⟩
  obtain ⟨out, ho⟩ := hf0 rf hrf
  refine ⟨⟨out⟩, ?_⟩
  unfold frontEnd
  rw [parameters_plain h, Res.ok_bind, hms, Res.ok_bind, hms2, Res.ok_bind, resolveComponentsOf_plain, Res.ok_bind, h4, Res.ok_bind]
  · dsimp only
    rw [ho]
    rfl
  · intro m hm a ha t hb
    obtain ⟨-, m', -, -, -, -, hc⟩ := hS.occurs (.assigned hm ha hb)
    exact hc.noComponentsOf h

end FastBer.Ast
