import Verif.Proofs.CompilesSource
/-!
# What the generated code refers to is written before
-/
namespace FastBer.Ast
open FastBer.Ast.Spec FastBer.Spec

/-! ## The output has the assignments of the split modules -/

/-- What is at a place on the right, and what is at it on the left. -/
theorem pointwise_at {α β : Type} {r : α → β → Prop} {as : List α} {bs : List β} (h : Pointwise r as bs) : ∀ pre b post, bs = pre ++ b :: post →
    ∃ pre' a post', as = pre' ++ a :: post' ∧ r a b ∧ Pointwise r pre' pre := by
  induction h with
  | nil => intro pre b post he; cases pre <;> cases he
  | @cons a b as bs h1 h2 ih =>
    intro pre b' post he
    cases pre with
    | nil =>
      obtain ⟨rfl, rfl⟩ := List.cons.inj he
      exact ⟨[], a, as, rfl, h1, .nil⟩
    | cons x pre =>
      obtain ⟨rfl, rfl⟩ := List.cons.inj he
      obtain ⟨pre', a', post', rfl, h3, h4⟩ := ih pre b' post rfl
      exact ⟨a :: pre', a', post', rfl, h3, .cons h1 h4⟩

section
variable {src : Tree} (hp : PlainSource src) (ha : Accepted src) (hc : CompilableSource src)

include hp ha hc in
theorem ordered_kept {m m2 m3 : Module} (hm : m ∈ src.modules) (h1 : SplitModule m m2) (h2 : OrderedModule m2 m3) :
    m3.name = m2.name ∧ m3.tagging = m2.tagging ∧ ∀ a, a ∈ m3.assignments ↔ a ∈ m2.assignments := by
  obtain ⟨-, j, rfl⟩ := h1
  obtain ⟨tree, rf, as, rfl, h3⟩ := h2
  refine ⟨rfl, rfl, fun a => ⟨reorder_kept hp ha hc hm j h3 a, fun h4 => ?_⟩⟩
  obtain ⟨h5, -⟩ := reorderAssignments_ok h3
  obtain ⟨b, hb, hn⟩ := List.mem_map.1 ((h5 a.name).2 (List.mem_map_of_mem h4))
  have hb' := reorder_kept hp ha hc hm j h3 b hb
  have := (find_key (pairwise_nodup.1 (split_nodup hp ha hm j)) hb' hn).symm.trans (find_key (pairwise_nodup.1 (split_nodup hp ha hm j)) h4 rfl)
  cases this
  exact hb

include hp ha hc in
theorem keptTree {ms : List Module} {S out : Tree} (hperm : ms.Perm src.modules) (hO : StoredTree S out) (h1 : Pointwise SplitModule ms S.modules)
    (h2 : Pointwise OrderedModule S.modules out.modules) : KeptTree S out where
  stored := hO
  kept := fun m3 hm3 => by
    obtain ⟨m2, hm2, h3⟩ := pointwise_right h2 hm3
    obtain ⟨m, hm, h4⟩ := pointwise_right h1 hm2
    exact ⟨m2, hm2, ordered_kept hp ha hc (hperm.mem_iff.1 hm) h4 h3⟩

end

/-! ## Storage -/

section
variable {src S out : Tree} (h : SplitTree src S) (hs : SupportedSource src) (ha : Accepted src) (hc : CompilableSourceNames src) (hK : KeptTree S out)
  {m m2 m3 : Module} (hM : MadeOf src S out m m2 m3)

include h hc hM in
/-- Nothing is stored dynamically. -/
theorem static_child {own : Name} {item : AType → Prop} {t u : AType} (ho : Occurs out m3 t) (hi : Child t u) {n : Name}
    (hu : Uses own (fun s => s ≠ .dynamic) item u n) : Uses own (fun s => s ≠ .dynamic) item t n := by
  have hne : ∀ q ref ps, t ≠ .defined q ref ps := by rintro q ref ps rfl; cases hi
  obtain ⟨t0, k, hso, he⟩ := hM.nested h ho hne
  have hst := hc.storage _ _ hso
  cases hi with
  | choice hm =>
    obtain ⟨as, rfl, -⟩ := nested_choice he
    exact .choice (hst _ List.mem_cons_self) hm hu
  | sequence hm =>
    obtain ⟨cs, rfl, rfl⟩ := nested_sequence he
    refine .sequence hm (fun _ => ?_) hu
    obtain ⟨c, hcs, j, rfl, -⟩ := nested_comp hm
    exact hst _ (List.mem_map.2 ⟨c, hcs, rfl⟩)
  | set hm =>
    obtain ⟨cs, rfl, rfl⟩ := nested_set he
    refine .set hm (fun _ => ?_) hu
    obtain ⟨c, hcs, j, rfl, -⟩ := nested_comp hm
    exact hst _ (List.mem_map.2 ⟨c, hcs, rfl⟩)
  | seqOf =>
    refine .seqOf ?_ hu
    cases t0 with
    | seqOf n t s =>
      rw [(AType.seqOf.inj he).2.2]
      exact hst _ List.mem_cons_self
    | _ => cases he
  | setOf =>
    refine .setOf ?_ hu
    cases t0 with
    | setOf n t s =>
      rw [(AType.setOf.inj he).2.2]
      exact hst _ List.mem_cons_self
    | _ => cases he
  | prefixed => exact .prefixed hu

include h hc hM in
theorem uses_inside {own : Name} {item : AType → Prop} {t u : AType} (ho : Occurs out m3 t) (hi : Inside t u) {n : Name}
    (hu : Uses own (fun s => s ≠ .dynamic) item u n) : Occurs out m3 u ∧ Uses own (fun s => s ≠ .dynamic) item t n := by
  have key : Occurs out m3 u ∧ (Uses own (fun s => s ≠ .dynamic) item u n → Uses own (fun s => s ≠ .dynamic) item t n) := by
    clear hu
    induction hi with
    | single h1 => exact ⟨occurs_child ho h1, fun hu => static_child h hc hM ho h1 hu⟩
    | tail _ h2 ih => exact ⟨occurs_child ih.1 h2, fun hu => ih.2 (static_child h hc hM ih.1 h2 hu)⟩
  exact ⟨key.1, key.2 hu⟩

theorem occurs_inside {tree : Tree} {m : Module} {t u : AType} (ho : Occurs tree m t) (hi : Inside t u) : Occurs tree m u := by
  induction hi with
  | single h1 => exact occurs_child ho h1
  | tail _ h2 ih => exact occurs_child ih h2

include h hc hM in
theorem mentioned_uses {own : Name} {item : AType → Prop} {t : AType} (ho : Occurs out m3 t) {q : Option Name} {ref : Name} (hm : Mentioned t q ref)
    (hq : q.getD own = own) : Uses own (fun s => s ≠ .dynamic) item t ref := by
  have hq' : q = none ∨ q = some own := by
    cases q with
    | none => exact .inl rfl
    | some q => exact .inr (congrArg some hq)
  obtain ⟨ps, rfl | hi⟩ := hm
  · exact .reference hq'
  · exact (uses_inside h hc hM ho hi (.reference hq')).2

/-- What is mentioned occurs. -/
theorem mentioned_occurs {tree : Tree} {m : Module} {t : AType} (ho : Occurs tree m t) {q : Option Name} {ref : Name} (hm : Mentioned t q ref) :
    ∃ ps, Occurs tree m (.defined q ref ps) := by
  obtain ⟨ps, rfl | hi⟩ := hm
  · exact ⟨ps, ho⟩
  · exact ⟨ps, occurs_inside ho hi⟩

/-! ## Order -/

include h ha hc in
theorem split_noInner {m m2 : Module} (hm : m ∈ src.modules) (hm2 : m2 ∈ S.modules) (hsp : SplitModule m m2) : NoInnerSetDefaults m2.assignments := by
  intro a' ha'
  refine ⟨fun t hb u hi => ?_, fun t v hb u hu => ?_⟩
  · rintro ⟨cs', e, rfl, c', hc', v, hv⟩
    have ho : Occurs S m2 (.set cs' e) := occurs_inside (.assigned hm2 ha' hb) hi
    obtain ⟨-, m', h1, h2, -, -, h3⟩ := h.occurs ho
    generalize hx : AType.set cs' e = t' at h3
    cases h3 with
    | alias => cases hx
    | name => cases hx
    | made hso _ =>
      obtain ⟨cs, rfl, rfl⟩ := nested_set hx
      obtain ⟨c, hcs, j, rfl, -⟩ := nested_comp hc'
      exact ha.setDefaults _ _ hso ⟨cs, e, rfl, c, hcs, v, hv⟩
  · obtain ⟨-, j, rfl⟩ := hsp
    rcases splitAssignments_bodies ha' with h1 | ⟨⟨t', h1⟩, -⟩
    · rcases mem_splitImports h1 with h1 | ⟨i, _, n, _, rfl⟩
      · exact hc.valueSets m hm a' h1 t v hb u hu
      · cases hb
    · rw [h1] at hb; cases hb

include h ha hc in
/-- Assignments come in order. -/
theorem ordered_inOrder {m m2 m3 : Module} (hm : m ∈ src.modules) (hm2 : m2 ∈ S.modules) (hsp : SplitModule m m2) (hord : OrderedModule m2 m3) :
    ∃ tree, InOrder tree m3.name m3.assignments := by
  have hno := split_noInner h ha hc hm hm2 hsp
  obtain ⟨tree, rf, as, rfl, h1⟩ := hord
  refine ⟨tree, ?_⟩
  exact (Props.C53_order_partial tree m2.name _ _ hno ⟨by simp, rf, h1⟩).2

/-- References to other modules are to modules imported from. -/
theorem comes_foreign {m m2 : Module} (hc : CompilableSourceNames src) (hm : m ∈ src.modules) {q : Option Name} {ref : Name} {ps : List AType} (hcm : Comes src S m m2 (.defined q ref ps))
    (hq : q.getD m.name ≠ m.name) : ∃ i ∈ m.imports, i.module = q.getD m.name := by
  generalize hx : AType.defined q ref ps = t at hcm
  cases hcm with
  | alias hi hn => cases hx; exact ⟨_, hi, rfl⟩
  | name => cases hx; exact absurd rfl hq
  | @made t k hso _ =>
    cases t with
    | defined =>
      cases hx
      cases q with
      | none => exact absurd rfl hq
      | some q =>
        rcases hc.external m q ref ps hso with rfl | h1
        · exact absurd rfl hq
        · exact h1
    | _ => cases hx

end

section
variable {src S out : Tree} (h : SplitTree src S) (hs : SupportedSource src) (ha : Accepted src) (hc : CompilableSource src) (hK : KeptTree S out)

include h ha hc in
theorem output_order {ms : List Module} (hperm : ms.Perm src.modules) (hfirst : ImportsFirst [] ms) (h1 : Pointwise SplitModule ms S.modules)
    (h2 : Pointwise OrderedModule S.modules out.modules) (hK : KeptTree S out) :
    ∀ before mod after, out.modules = before ++ mod :: after → ∀ as a bs, mod.assignments = as ++ a :: bs → ∀ t, a.body = .type t →
    ∀ q ref, Mentioned t q ref → if q.getD mod.name = mod.name then ∃ b ∈ as, b.name = ref else ∃ w ∈ before, w.name = q.getD mod.name := by
  intro before m3 after he as a bs hea t hb q ref hmen
  obtain ⟨before2, m2, after2, he2, hord, hpre⟩ := pointwise_at h2 _ _ _ he
  obtain ⟨before1, m, after1, he1, hsp, hpre1⟩ := pointwise_at h1 _ _ _ he2
  have hm : m ∈ src.modules := hperm.mem_iff.1 (by rw [he1]; simp)
  have hm2 : m2 ∈ S.modules := by rw [he2]; simp
  have hm3 : m3 ∈ out.modules := by rw [he]; simp
  obtain ⟨hn, ht, hk⟩ := ordered_kept h.plain ha hc hm hsp hord
  have hM : MadeOf src S out m m2 m3 := ⟨hm, hm2, hm3, hsp, hn.trans hsp.name, ht.trans hsp.tagging, hk⟩
  have ho : Occurs out m3 t := .assigned hm3 (by rw [hea]; simp) hb
  split
  · rename_i hq
    obtain ⟨tree, hio⟩ := ordered_inOrder h ha hc.toCompilableSourceNames hm hm2 hsp hord
    refine hio as a bs hea ref ?_
    rw [hb]
    exact .type (mentioned_uses h hc.toCompilableSourceNames hM ho hmen hq)
  · rename_i hq
    obtain ⟨ps, hom⟩ := mentioned_occurs ho hmen
    rw [hM.name] at hq ⊢
    obtain ⟨i, hi, hin⟩ := comes_foreign hc.toCompilableSourceNames hm (hM.comes h hom) hq
    have := hfirst before1 m after1 he1 _ ⟨i, hi, rfl⟩
    obtain ⟨w, hw, hwn⟩ := List.mem_map.1 this
    rw [List.nil_append] at hw
    obtain ⟨w2, hw2, h3⟩ := pointwise_left hpre1 hw
    obtain ⟨w3, hw3, h4⟩ := pointwise_left hpre hw2
    obtain ⟨hn', -⟩ := ordered_kept h.plain ha hc (hperm.mem_iff.1 (by rw [he1]; simp [hw])) h3 h4
    exact ⟨w3, hw3, by rw [hn', h3.name, hwn, hin]⟩

end

end FastBer.Ast
