import Verif.Proofs.HiddenRefs
/-!
# Sources with recursive types: the order of what is written
-/
namespace FastBer.Ast
open FastBer.Ast.Spec FastBer.Spec

/-- What leads to no cycle ends. -/
theorem acc_of_no_leads {m : Module} {n : Name} (h : ¬ LeadsToCycle m n) : Acc (fun x y => MentionedBy m.name m.assignments y x) n := by
  let R' : Name → Name → Prop := fun x y => MentionedBy m.name m.assignments x y ∧ (n = x ∨ Relation.TransGen (MentionedBy m.name m.assignments) n x)
  have weak : ∀ {x y}, Relation.TransGen R' x y → Relation.TransGen (MentionedBy m.name m.assignments) x y ∧ (n = x ∨ Relation.TransGen (MentionedBy m.name m.assignments) n x) := by
    intro x y hxy
    induction hxy with
    | single h1 => exact ⟨.single h1.1, h1.2⟩
    | tail _ h1 ih => exact ⟨.tail ih.1 h1.1, ih.2⟩
  have hno : ¬ ∃ c, Relation.TransGen R' c c := fun ⟨c, hc⟩ => h ⟨c, (weak hc).2, (weak hc).1⟩
  have hacc := acc_of_no_cycle (R := R') (m.assignments.map (·.name)) (by
    rintro a b ⟨⟨a', h1, rfl, -⟩, -⟩
    exact List.mem_map_of_mem h1) hno n
  have key : ∀ x, Acc (fun x y => R' y x) x → (n = x ∨ Relation.TransGen (MentionedBy m.name m.assignments) n x) → Acc (fun x y => MentionedBy m.name m.assignments y x) x := by
    intro x hx
    induction hx with
    | intro x _ ih =>
      intro hr
      refine ⟨_, fun y hy => ih y ⟨hy, hr⟩ ?_⟩
      rcases hr with rfl | hr
      · exact .inr (.single hy)
      · exact .inr (.tail hr hy)
  exact key n hacc (.inl rfl)

theorem Simple.forget {t u : AType} (h : forget t = forget u) (hs : Simple u) : Simple t := by
  rcases hs with hs | rfl
  · exact .inl ((forget_isList h).trans hs)
  · exact .inr (forget_leaf h)

theorem untag_uses {own : Name} {look : Storage → Prop} {item : AType → Prop} {q : Option Name} {ref : Name} {ps : List AType} (hq : q = none ∨ q = some own) :
    ∀ t : AType, untag t = .defined q ref ps → Uses own look item t ref
  | .defined _ _ _, h => by cases h; exact .reference hq
  | .prefixed _ _ _ t, h => .prefixed (untag_uses hq t h)
  | .leaf _, h => by cases h
  | .objField _ _ _, h => by cases h
  | .choice _ _, h => by cases h
  | .sequence _ _, h => by cases h
  | .set _ _, h => by cases h
  | .seqOf _ _ _, h => by cases h
  | .setOf _ _ _, h => by cases h

section
variable {src S out : Tree} (h : SplitTree src S) (hs : SupportedSource src) (ha : Accepted src) (hc : RCompilableSource src) (hO : StoredTree S out)
include h ha hc

theorem ordered_name {m2 m3 : Module} (h : OrderedModule m2 m3) : m3.name = m2.name := by
  obtain ⟨tree, rf, as, rfl, -⟩ := h
  rfl

include hO in
/-- In what the last pass has changed, no list or enumeration is referred to in a hidden place. -/
theorem hidden_simple {m m2 m3 : Module} (hm : m ∈ src.modules) (hm2 : m2 ∈ S.modules) (hsp : SplitModule m m2) (hn : m3.name = m2.name)
    {a2 : Assignment} (ha2 : a2 ∈ m2.assignments) (hcyc : Relation.TransGen (MentionedBy m2.name m2.assignments) a2.name a2.name) {t2 : AType} (hb2 : a2.body = .type t2)
    {q : Option Name} {ref : Name} {ps : List AType} (hh : Hidden t2 (.defined q ref ps)) {wm : Module} {u : AType} (ht : target out m3 q ref = some (wm, u)) : ¬ Simple u := by
  intro hu
  obtain ⟨-, j, rfl⟩ := hsp
  obtain ⟨a0, h1, t0, u0, i, h2, h3, rfl, h4, -⟩ := split_from _ _ _ ha2 hb2
  have hleads : LeadsToCycle m a0.name := by
    apply Classical.byContradiction
    intro hl
    exact acc_no_cycle (split_mentions_acc h.plain ha hm j ha2 h1 h2 h3 hb2 h4 (acc_of_no_leads hl)) hcyc
  have ha0 : a0 ∈ m.assignments := by
    rcases mem_splitImports h1 with h1 | ⟨k, hk, n, hn', rfl⟩
    · exact h1
    · exfalso
      cases h2
      rcases within_cases h3 with rfl | ⟨c, hcc, -⟩
      · cases hh
      · cases hcc
  rcases nested_hidden _ u0 i (Nat.le_refl _) hh with hh | ⟨rfl, t', h5, h6, h7⟩
  · have hid := hidden_within h3 hh
    have hso : Occurs src m (.defined q ref ps) := occurs_within hid.within (.assigned hm ha0 h2)
    have hcore : Core out m3 (.defined q ref ps) wm u := .reference ht (.here (by
      rcases hu with hu | rfl
      · cases u with
        | seqOf | setOf => rfl
        | _ => cases hu
      · rfl))
    have hsim : Sim S out SameRef _ (.defined q ref ps) m3 (.defined q ref ps) := .defined ⟨hn.symm, rfl, rfl⟩
    obtain ⟨wm2, u2, hcore2, h8⟩ := hsim.symm.core hO.corr.symm hcore
    have hu2 := h8.simple (core_isCore hcore) (core_isCore hcore2) hu
    have hsim' : Sim (qualify src) S (SplitRel src) m (qualifyType src m.name (.defined q ref ps)) { m with assignments := (splitAssignments m.name (splitImports m.assignments m.imports) j).1 } (.defined q ref ps) :=
      .defined ⟨rfl, rfl, h.leads (h.plain.references m q ref ps hso) _⟩
    obtain ⟨wm1, u1, hcore1, h9⟩ := hsim'.symm.core h.corr.symm hcore2
    obtain ⟨h10, h11⟩ := hc.lists m hm a0 ha0 t0 h2 hleads q ref ps hid wm1 u1 hcore1
    rcases h9.simple (core_isCore hcore2) (core_isCore hcore1) hu2 with h12 | h12
    · rw [h10] at h12; cases h12
    · exact h11 h12
  · obtain ⟨b, hb, rfl, hbt⟩ := h4 _ h5
    have htar := h.distinct.target (m := { m with assignments := (splitAssignments m.name (splitImports m.assignments m.imports) j).1 }) hm2 (q := some m.name) rfl hb rfl hbt
    obtain ⟨w2, u2, h8, -, h9⟩ := hO.untarget hn ht
    have : (_, _) = (w2, u2) := Option.some.inj (htar.symm.trans h8)
    cases this
    rcases hu.forget h9 with h10 | h10
    · rw [h6] at h10; cases h10
    · obtain ⟨v, h11, h12 | h12 | ⟨c, n, k, h13, h14⟩⟩ := (h7 h10).within h3
      · obtain ⟨n, s, rfl⟩ := h12
        exact (hc.enums m hm a0 ha0 t0 h2 hleads _ h11).1 _ _ rfl
      · obtain ⟨n, s, rfl⟩ := h12
        exact (hc.enums m hm a0 ha0 t0 h2 hleads _ h11).2.1 _ _ rfl
      · exact (hc.enums m hm a0 ha0 t0 h2 hleads _ h11).2.2 c n k h13 h14

include hs in
/-- Beside the order of lists, enumerations and names for names there is nothing forward declarations do not serve. -/
theorem output_forward {ms : List Module} (hperm : ms.Perm src.modules) (hfirst : ImportsFirst [] ms) (h1 : Pointwise SplitModule ms S.modules)
    (h2 : Pointwise OrderedModule S.modules out.modules) (hO : StoredTree S out) : RCompilable out where
  toCompilableNames := names_stored hO (output_names h hs hc.toCompilableSourceNames (keptTree_refl h.distinct))
  order := by
    intro before m3 after he as a bs hea t hb q ref hmen hwhat
    obtain ⟨before2, m2, after2, he2, hord, hpre⟩ := pointwise_at h2 _ _ _ he
    obtain ⟨before1, m, after1, he1, hsp, hpre1⟩ := pointwise_at h1 _ _ _ he2
    have hm : m ∈ src.modules := hperm.mem_iff.1 (by rw [he1]; simp)
    have hm2 : m2 ∈ S.modules := by rw [he2]; simp
    have hm3 : m3 ∈ out.modules := by rw [he]; simp
    have hn := ordered_name h ha hc hord
    have hM : MadeOf src S S m m2 m2 := ⟨hm, hm2, hm2, hsp, hsp.name, hsp.tagging, fun _ => Iff.rfl⟩
    have ho : Occurs out m3 t := .assigned hm3 (by rw [hea]; simp) hb
    have ham3 : a ∈ m3.assignments := by rw [hea]; simp
    split
    · rename_i hq
      have hq' : q = none ∨ q = some m3.name := by
        cases q with
        | none => exact .inl rfl
        | some q => exact .inr (congrArg some hq)
      obtain ⟨tree, hio⟩ := ordered_inOrder h ha hc.toCompilableSourceNames hm hm2 hsp hord
      refine hio as a bs hea ref ?_
      rw [hb]
      refine .type ?_
      rcases hwhat with ⟨wm, u, h3, h4⟩ | ⟨ps, h3⟩
      · have hch : ∃ a2 ∈ m2.assignments, a2.name = a.name ∧ forgetA a2 = forgetA a ∧ (a = a2 ∨ Relation.TransGen (MentionedBy m2.name m2.assignments) a2.name a2.name) := by
          obtain ⟨tr, rf, as', rfl, h5⟩ := hord
          obtain ⟨-, j, rfl⟩ := hsp
          exact Props.C53_dynamic_partial tr m.name _ as' (split_local h.plain ha hm j) ⟨by simp, rf, h5⟩ a ham3
        obtain ⟨a2, h5, h6, h7, rfl | h8⟩ := hch
        · rw [hn]
          exact mentioned_uses h hc.toCompilableSourceNames hM (.assigned hm2 h5 hb) hmen (by rw [← hn]; exact hq)
        · obtain ⟨ps, hw⟩ := hmen
          rcases uses_or_hidden (look := fun s => s ≠ .dynamic) (item := EnumType tree m3.name) hq' _ t (Nat.le_refl _) hw with h9 | h9
          · exact h9
          · obtain ⟨-, t2, h10, h11⟩ := forgetA_type h7.symm hb
            exact absurd h4 (hidden_simple h ha hc hO hm hm2 hsp hn h5 h8 h10 (hidden_forget h9 h11.symm) h3)
      · exact untag_uses hq' t h3
    · rename_i hq
      obtain ⟨ps, hom⟩ := mentioned_occurs ho hmen
      obtain ⟨m2', hm2', t2, ho2, hf, hst⟩ := hO.occurs hom
      cases forget_defined hf
      have e : m2' = m2 := by
        have := (find_key (key := Module.name) h.distinct.modules hm2' (hst.name.symm.trans hn)).symm.trans (find_key (key := Module.name) h.distinct.modules hm2 rfl)
        exact Option.some.inj this
      subst e
      rw [hn, hsp.name] at hq ⊢
      obtain ⟨i, hi, hin⟩ := comes_foreign hc.toCompilableSourceNames hm (hM.comes h ho2) hq
      have := hfirst before1 m after1 he1 _ ⟨i, hi, rfl⟩
      obtain ⟨w, hw, hwn⟩ := List.mem_map.1 this
      rw [List.nil_append] at hw
      obtain ⟨w2, hw2, h3⟩ := pointwise_left hpre1 hw
      obtain ⟨w3, hw3, h4⟩ := pointwise_left hpre hw2
      exact ⟨w3, hw3, by rw [ordered_name h ha hc h4, h3.name, hwn, hin]⟩

end

end FastBer.Ast
