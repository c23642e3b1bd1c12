import Verif.Proofs.AcceptsAll
import Verif.Spec.CompilableSource
/-!
# Sources without recursion: what the last pass leaves unchanged
-/
namespace FastBer.Ast
open FastBer.Ast.Spec

section
variable {src : Tree} (hp : PlainSource src) (ha : Accepted src) (hc : CompilableSource src) {m : Module} (hm : m ∈ src.modules) (j : Nat)
include hp ha hm

theorem piece_acyclic {b : Assignment} (hb : b ∈ (splitAssignments m.name (splitImports m.assignments m.imports) j).1) {t' : AType} (ht : b.body = .type t')
    (h : ∀ w, Uses m.name (fun _ => True) (fun t => t = .leaf .enumerated) t' w →
      Acc (fun x y => MentionedBy m.name (splitAssignments m.name (splitImports m.assignments m.imports) j).1 y x) w) :
    Acc (fun x y => MentionedBy m.name (splitAssignments m.name (splitImports m.assignments m.imports) j).1 y x) b.name := by
  refine ⟨_, fun w hw => ?_⟩
  obtain ⟨a, h1, h2, h3⟩ := hw
  have := (find_key (pairwise_nodup.1 (split_nodup hp ha hm j)) h1 h2).symm.trans (find_key (pairwise_nodup.1 (split_nodup hp ha hm j)) hb rfl)
  cases this
  rw [ht] at h3
  cases h3 with
  | type h3 => exact h w h3

/-- What leads to no cycle in the source leads to none after splitting. -/
theorem mentions_acc (n : Name) (hn : ¬ MadeUp n) (hacc : Acc (fun x y => MentionedBy m.name m.assignments y x) n) :
    Acc (fun x y => MentionedBy m.name (splitAssignments m.name (splitImports m.assignments m.imports) j).1 y x) n := by
  induction hacc with
  | intro n _ ih =>
    refine ⟨_, fun w hw => ?_⟩
    obtain ⟨a', ha', hna, hu⟩ := hw
    have ih' : ∀ v, MentionedBy m.name m.assignments n v → Acc (fun x y => MentionedBy m.name (splitAssignments m.name (splitImports m.assignments m.imports) j).1 y x) v := by
      intro v hv
      obtain ⟨a, h1, h2, h3⟩ := hv
      exact ih v ⟨a, h1, h2, h3⟩ (ownNames_notMadeUp hp ha hm (ha.mentions m hm a h1 v h3))
    by_cases hb : ∃ t', a'.body = .type t'
    · obtain ⟨t', hb⟩ := hb
      obtain ⟨a, h1, t, u, i, h2, h3, rfl, h4, h5⟩ := split_from _ _ _ ha' hb
      obtain ⟨h5', rfl⟩ := h5.resolve_right (by rw [hna]; exact hn)
      rw [hb] at hu
      cases hu with
      | type hu =>
        refine nested_uses (A := fun w => Acc (fun x y => MentionedBy m.name (splitAssignments m.name (splitImports m.assignments m.imports) j).1 y x) w) u i ?_ ?_ w hu
        · intro p hp' hq
          obtain ⟨b, hb1, hb2, hb3⟩ := h4 p hp'
          rw [← hb2]
          exact piece_acyclic hp ha hm j hb1 hb3 hq
        · intro v hv
          exact ih' v ⟨a, (type_mentions hp ha hm h1 h2 hv).1, h5'.symm.trans hna, by rw [h2]; exact .type hv⟩
    · rcases splitAssignments_bodies ha' with h | ⟨h, -⟩
      · rcases mem_splitImports h with h | ⟨i, hi, n', hn', rfl⟩
        · exact ih' w ⟨a', h, hna, hu⟩
        · exact absurd ⟨_, rfl⟩ hb
      · exact absurd h hb

/-- The same for all that is made of an assignment. -/
theorem split_mentions_acc {b : Assignment} (hb : b ∈ (splitAssignments m.name (splitImports m.assignments m.imports) j).1) {a : Assignment} (h1 : a ∈ splitImports m.assignments m.imports)
    {t u : AType} {i : Nat} (h2 : a.body = .type t) (h3 : Within t u) (ht : b.body = .type (findNested m.name u i).1)
    (h4 : ∀ p ∈ (findNested m.name u i).2.1, ∃ b ∈ (splitAssignments m.name (splitImports m.assignments m.imports) j).1, b.name = p.1 ∧ b.body = .type p.2)
    (hacc : Acc (fun x y => MentionedBy m.name m.assignments y x) a.name) :
    Acc (fun x y => MentionedBy m.name (splitAssignments m.name (splitImports m.assignments m.imports) j).1 y x) b.name := by
  refine piece_acyclic hp ha hm j hb ht fun w hu => ?_
  refine nested_uses (A := fun w => Acc (fun x y => MentionedBy m.name (splitAssignments m.name (splitImports m.assignments m.imports) j).1 y x) w) u i ?_ ?_ w hu
  · intro p hp' hq
    obtain ⟨b, hb1, hb2, hb3⟩ := h4 p hp'
    rw [← hb2]
    exact piece_acyclic hp ha hm j hb1 hb3 hq
  · intro v hv
    obtain ⟨h5, h6⟩ := type_mentions hp ha hm h1 h2 (uses_within h3 hv)
    exact mentions_acc hp ha hm j v (ownNames_notMadeUp hp ha hm h6) (hacc.inv ⟨a, h5, rfl, by rw [h2]; exact .type (uses_within h3 hv)⟩)

include hc in
theorem original_acyclic (n : Name) (hn : ¬ MadeUp n) :
    Acc (fun x y => MentionedBy m.name (splitAssignments m.name (splitImports m.assignments m.imports) j).1 y x) n := by
  refine mentions_acc hp ha hm j n hn (acc_of_no_cycle (m.assignments.map (·.name)) ?_ (hc.recursion m hm) n)
  rintro a b ⟨a', h1, rfl, -⟩
  exact List.mem_map_of_mem h1

include hc in
theorem split_acyclic (n : Name) : ¬ Relation.TransGen (MentionedBy m.name (splitAssignments m.name (splitImports m.assignments m.imports) j).1) n n := by
  refine acc_no_cycle ?_
  by_cases hn : MadeUp n
  · refine ⟨_, fun w hw => ?_⟩
    obtain ⟨a', ha', hna, hu⟩ := hw
    by_cases hb : ∃ t', a'.body = .type t'
    · obtain ⟨t', hb⟩ := hb
      obtain ⟨a, h1, t, u, i, h2, h3, rfl, h4, h5⟩ := split_from _ _ _ ha' hb
      rw [hb] at hu
      cases hu with
      | type hu =>
        refine nested_uses (A := fun w => Acc (fun x y => MentionedBy m.name (splitAssignments m.name (splitImports m.assignments m.imports) j).1 y x) w) u i ?_ ?_ w hu
        · intro p hp' hq
          obtain ⟨b, hb1, hb2, hb3⟩ := h4 p hp'
          rw [← hb2]
          exact piece_acyclic hp ha hm j hb1 hb3 hq
        · intro v hv
          exact original_acyclic hp ha hc hm j v (ownNames_notMadeUp hp ha hm (type_mentions hp ha hm h1 h2 (uses_within h3 hv)).2)
    · rcases splitAssignments_bodies ha' with h | ⟨h, -⟩
      · rcases mem_splitImports h with h | ⟨i, hi, n', hn', rfl⟩
        · exact absurd (hna ▸ hn) (hp.names m hm a' h)
        · exact absurd ⟨_, rfl⟩ hb
      · exact absurd h hb
  · exact original_acyclic hp ha hc hm j n hn

include hc in
/-- The last pass changes only the order of the assignments. -/
theorem reorder_kept {tree : Tree} {rf : Nat} {as : List Assignment} (h : reorderAssignments tree m.name rf (splitAssignments m.name (splitImports m.assignments m.imports) j).1 = .ok as) :
    ∀ a ∈ as, a ∈ (splitAssignments m.name (splitImports m.assignments m.imports) j).1 := by
  intro a' ha'
  obtain ⟨a, h1, -, -, h4⟩ := Props.C53_dynamic_partial tree m.name _ as (split_local hp ha hm j) ⟨by simp, rf, h⟩ a' ha'
  rcases h4 with rfl | h4
  · exact h1
  · exact absurd h4 (split_acyclic hp ha hc hm j _)

end

/-- The module the last pass makes of a module. -/
def OrderedModule (m2 m3 : Module) : Prop := ∃ tree rf as, m3 = { m2 with assignments := as } ∧ reorderAssignments tree m2.name rf m2.assignments = .ok as

theorem reorderLoop_each {rf : Nat} : ∀ {ms done out : List Module}, reorderLoop rf done ms = .ok out →
    ∃ out', out = done ++ out' ∧ Pointwise OrderedModule ms out'
  | [], done, out, h => by cases h; exact ⟨[], by simp, .nil⟩
  | m :: ms, done, out, h => by
    rw [reorderLoop] at h
    obtain ⟨as, h1, h2⟩ := Res.bind_eq_ok.1 h
    obtain ⟨out', rfl, h3⟩ := reorderLoop_each h2
    exact ⟨{ m with assignments := as } :: out', by simp, .cons ⟨_, rf, as, rfl, h1⟩ h3⟩

/-- What the front end makes of a plain source, module by module. -/
theorem frontEnd_shape {src out : Tree} {rf : Nat} (h : PlainSource src) (hf : frontEnd rf src = .ok out) :
    ∃ ms S, ms.Perm src.modules ∧ ImportsFirst [] ms ∧ SplitTree src S ∧ StoredTree S out ∧ Pointwise SplitModule ms S.modules ∧ Pointwise OrderedModule S.modules out.modules := by
  unfold frontEnd at hf
  rw [parameters_plain h, Res.ok_bind] at hf
  obtain ⟨ms, h1, hf⟩ := Res.bind_eq_ok.1 hf
  obtain ⟨ms2, h2, hf⟩ := Res.bind_eq_ok.1 hf
  obtain ⟨T3, h3, hf⟩ := Res.bind_eq_ok.1 hf
  obtain ⟨T4, h4, hf⟩ := Res.bind_eq_ok.1 hf
  obtain ⟨ms5, h5, hf⟩ := Res.bind_eq_ok.1 hf
  cases hf
  obtain ⟨hperm, hfirst⟩ := reorderModules_ok (pairwise_nodup.2 h.modules) h1
  have hsp := splitLoop_ok h2
  have hmods : ms2.Pairwise fun a b => a.name ≠ b.name := by
    rw [← pairwise_nodup]
    rw [pointwise_key hsp (key := Module.name) (key' := Module.name) (fun a b hab => by obtain ⟨-, j, rfl⟩ := hab; rfl)]
    exact (hperm.map Module.name).nodup_iff.2 (pairwise_nodup.2 h.modules)
  have hS : SplitTree src ⟨ms2⟩ := {
    plain := h
    modules := hmods
    split := fun m hm => pointwise_left hsp (hperm.mem_iff.2 hm)
    only := fun m' hm' => by
      obtain ⟨m, hm, hr⟩ := pointwise_right hsp hm'
      exact ⟨m, hperm.mem_iff.1 hm, hr⟩ }
  rw [resolveComponentsOf_plain] at h3
  · cases h3
    have := resolveObjectClasses_plain hS.classes hS.params (fun m q c fs ho => by
      obtain ⟨-, m', -, -, -, -, hc⟩ := hS.occurs ho
      exact hc.noObject h q c fs rfl) h4
    subst this
    obtain ⟨out', hout, hst⟩ := reorderLoop_ok h5
    obtain ⟨out2, hout2, hea⟩ := reorderLoop_each h5
    rw [List.nil_append] at hout hout2
    subst hout
    subst hout2
    refine ⟨ms, _, hperm, hfirst, hS, storedTree_of hS.distinct hst, hsp, hea⟩
  · intro m hm a ha t hb
    obtain ⟨-, m', -, -, -, -, hc⟩ := hS.occurs (.assigned hm ha hb)
    exact hc.noComponentsOf h

end FastBer.Ast
