import Verif.Proofs.Params
import Verif.Proofs.Pipeline
/-!
# Sources with parameterized types are compiled like their expansions
-/
namespace FastBer.Ast
open Spec

theorem mem_substituteAlts {σ : Name → Option AType} : ∀ {as : List Named} {a : Named}, a ∈ as → .mk a.name (substitute σ a.type) ∈ substituteAlts σ as
  | [], _, h => by cases h
  | .mk n t :: as, a, h => by
    rw [substituteAlts]
    rcases List.mem_cons.1 h with rfl | h
    · exact List.mem_cons_self
    · exact List.mem_cons_of_mem _ (mem_substituteAlts h)

theorem mem_substituteComps {σ : Name → Option AType} : ∀ {cs : List Comp} {c : Comp}, c ∈ cs → ∃ c' ∈ substituteComps σ cs, c'.type = substitute σ c.type
  | [], _, h => by cases h
  | .mk n t o d co s :: cs, c, h => by
    rw [substituteComps]
    rcases List.mem_cons.1 h with rfl | h
    · exact ⟨_, List.mem_cons_self, rfl⟩
    · obtain ⟨c', h1, h2⟩ := mem_substituteComps (σ := σ) h
      exact ⟨c', List.mem_cons_of_mem _ h1, h2⟩

theorem substitute_child {σ : Name → Option AType} {t c : AType} (h : Child t c) : Child (substitute σ t) (substitute σ c) := by
  cases h with
  | choice ha => rw [substitute]; exact Child.choice (mem_substituteAlts ha)
  | sequence hc =>
    obtain ⟨c', h1, h2⟩ := mem_substituteComps (σ := σ) hc
    rw [substitute, ← h2]
    exact .sequence h1
  | set hc =>
    obtain ⟨c', h1, h2⟩ := mem_substituteComps (σ := σ) hc
    rw [substitute, ← h2]
    exact .set h1
  | seqOf => rw [substitute]; exact .seqOf
  | setOf => rw [substitute]; exact .setOf
  | prefixed => rw [substitute]; exact .prefixed

theorem substitute_parameterized {σ : Name → Option AType} {t : AType} (h : Parameterized t) : Parameterized (substitute σ t) := by
  obtain ⟨m, ref, args, rfl, hne⟩ := h
  obtain ⟨a, as, rfl⟩ := List.exists_cons_of_ne_nil hne
  cases m with
  | none =>
    rw [substitute]
    · exact ⟨_, _, _, rfl, by rw [substituteArgs]; nofun⟩
    · nofun
  | some m =>
    rw [substitute]
    exact ⟨_, _, _, rfl, by rw [substituteArgs]; nofun⟩

/-- A reference with arguments stays one. -/
theorem substitute_somewhere {σ : Name → Option AType} {t : AType} (h : Somewhere Parameterized t) : Somewhere Parameterized (substitute σ t) := by
  rcases h with h | ⟨u, hu, h⟩
  · exact .inl (substitute_parameterized h)
  · refine .inr ⟨substitute σ u, ?_, substitute_parameterized h⟩
    clear h
    induction hu with
    | single h => exact .single (substitute_child h)
    | tail _ h ih => exact .tail ih (substitute_child h)

/-- The pass does what the specification says if the result has no arguments left. -/
theorem toConcrete_of_expanded {tree : Tree} (hg : GoodTemplates tree) {mod : Name} {t t' : AType} (h : Expanded tree mod t t') :
    ¬ Somewhere Parameterized t' → toConcrete tree mod t = .ok t' := by
  refine Expanded.rec (tree := tree) (mod := mod) (motive_1 := fun t t' _ => ¬ Somewhere Parameterized t' → toConcrete tree mod t = .ok t')
    (motive_2 := fun as as' _ => (∀ a ∈ as', ¬ Somewhere Parameterized a.type) → toConcreteAlts tree mod as = .ok as')
    (motive_3 := fun cs cs' _ => (∀ c ∈ cs', ¬ Somewhere Parameterized c.type) → toConcreteComps tree mod cs = .ok cs')
    ?_ ?_ ?_ ?_ ?_ ?_ ?_ ?_ ?_ ?_ ?_ ?_ ?_ ?_ h
  · intro k _; rfl
  · intro m c fs _; rfl
  · intro m ref _; rw [toConcrete]; rfl
  · intro m ref args ps body hne ht hl hp
    rw [toConcrete, if_pos (List.length_pos_iff.2 hne), instantiate_of_template ht hl]
    have hps : ps ≠ [] := by
      rintro rfl
      exact hne (List.eq_nil_of_length_eq_zero hl.symm)
    obtain ⟨hn, hc⟩ := hg _ _ _ _ ht hps
    rcases substParams_claim (paramTypes ps args) body with ⟨h1, -⟩ | ⟨-, t', h1, h2⟩
    · exact absurd (substitute_somewhere h1) hp
    · rw [h1, h2 hc, findParam_paramTypes _ _ hn]
  · intro as as' s _ ih hp
    rw [toConcrete, ih fun a ha hs => hp (.child (.choice ha) hs)]; rfl
  · intro cs cs' e _ ih hp
    rw [toConcrete, ih fun a ha hs => hp (.child (.sequence ha) hs)]; rfl
  · intro cs cs' e _ ih hp
    rw [toConcrete, ih fun a ha hs => hp (.child (.set ha) hs)]; rfl
  · intro t t' n s _ ih hp
    rw [toConcrete, ih fun hs => hp (.child .seqOf hs)]; rfl
  · intro t t' n s _ ih hp
    rw [toConcrete, ih fun hs => hp (.child .setOf hs)]; rfl
  · intro t t' c k m _ ih hp
    rw [toConcrete, ih fun hs => hp (.child .prefixed hs)]; rfl
  · intro _; rfl
  · intro n t t' as as' _ _ ih1 ih2 hp
    rw [toConcreteAlts, ih1 (hp (.mk n t') List.mem_cons_self), Res.ok_bind, ih2 fun a ha => hp a (List.mem_cons_of_mem _ ha)]; rfl
  · intro _; rfl
  · intro n t t' o d s cs cs' _ _ ih1 ih2 hp
    rw [toConcreteComps, ih1 (hp (.mk n t' o d none s) List.mem_cons_self), Res.ok_bind, ih2 fun a ha => hp a (List.mem_cons_of_mem _ ha)]; rfl

theorem plain_somewhere {src : Tree} (h : PlainSource src) {m : Module} (hm : m ∈ src.modules) {a : Assignment} (ha : a ∈ m.assignments) {t : AType} (hb : a.body = .type t) :
    ¬ Somewhere Parameterized t := by
  have hpar : ∀ w, Occurs src m w → ¬ Parameterized w := by
    rintro w hw ⟨q, ref, ps, rfl, hne⟩
    exact hne (h.arguments m q ref ps hw)
  rintro (hu | ⟨w, hin, hw⟩)
  · exact hpar t (.assigned hm ha hb) hu
  · refine hpar w ?_ hw
    clear hw
    have ho : Occurs src m t := .assigned hm ha hb
    induction hin with
    | single hc => exact occurs_child ho hc
    | tail _ hc ih => exact occurs_child ih hc

/-- The assignments of a module. -/
theorem concrete_filter {tree : Tree} (hg : GoodTemplates tree) {mod : Name} : ∀ {as bs : List Assignment},
    Pointwise (ExpandedAssignment tree mod) (as.filter fun a => a.params.isEmpty) bs → (∀ b ∈ bs, ∀ t, b.body = .type t → ¬ Somewhere Parameterized t) →
    ∃ cs, as.mapM (concreteAssignment tree mod) = .ok cs ∧ (cs.filter fun a => !(a.params.length > 0)) = bs := by
  intro as
  induction as with
  | nil => intro bs h _; cases h; exact ⟨[], rfl, rfl⟩
  | cons a as ih =>
    intro bs h hp
    rw [List.filter_cons] at h
    rw [List.mapM_cons]
    split at h
    · rename_i hpa
      have hpa : a.params = [] := by simpa using hpa
      cases h with
      | @cons _ b _ bs hab hr =>
        obtain ⟨cs, h1, h2⟩ := ih hr fun b hb => hp b (List.mem_cons_of_mem _ hb)
        refine ⟨b :: cs, ?_, ?_⟩
        · have : concreteAssignment tree mod a = .ok b := by
            cases hab with
            | @type n t t' he =>
              unfold concreteAssignment
              dsimp only
              rw [if_pos List.length_nil, toConcrete_of_expanded hg he (hp _ List.mem_cons_self _ rfl)]
              rfl
            | other hne _ =>
              unfold concreteAssignment
              split
              · rename_i t hb
                exact absurd hb (hne t)
              · rfl
          rw [this, Res.ok_bind, h1]; rfl
        · have hb : b.params = [] := by
            cases hab with
            | type => rfl
            | other _ h => exact h
          rw [List.filter_cons, if_pos (by simp [hb]), h2]
    · rename_i hpa
      obtain ⟨cs, h1, h2⟩ := ih h hp
      have hpa : a.params ≠ [] := by simpa using hpa
      have hl : a.params.length ≠ 0 := fun h => hpa (List.eq_nil_of_length_eq_zero h)
      refine ⟨a :: cs, ?_, ?_⟩
      · have : concreteAssignment tree mod a = .ok a := by
          unfold concreteAssignment
          split
          · rw [if_neg hl]
          · rfl
        rw [this, Res.ok_bind, h1]; rfl
      · rw [List.filter_cons, if_neg (by simp [List.length_pos_iff.2 hpa]), h2]

/-- If the expansion of a source, by the specification, is plain, then it is what the pass makes of the source. -/
theorem resolveParameters_expanded {src src' : Tree} (hg : GoodTemplates src) (hx : Pointwise (ExpandedModule src) src.modules src'.modules) (hp : PlainSource src') :
    resolveParameters src = .ok src' := by
  have key : ∀ {ms ms' : List Module}, Pointwise (ExpandedModule src) ms ms' → (∀ m ∈ ms', ∀ a ∈ m.assignments, ∀ t, a.body = .type t → ¬ Somewhere Parameterized t) →
      (ms.mapM fun m => do
        let as ← m.assignments.mapM (concreteAssignment src m.name)
        .ok { m with assignments := as.filter fun a => !(a.params.length > 0) }) = Res.ok ms' := by
    intro ms ms' h
    induction h with
    | nil => intro _; rfl
    | @cons m m' ms ms' hm _ ih =>
      intro hp
      obtain ⟨h1, h2, h3, h4⟩ := hm
      obtain ⟨cs, h5, h6⟩ := concrete_filter hg h4 (hp m' List.mem_cons_self)
      rw [List.mapM_cons, h5, Res.ok_bind, Res.ok_bind, ih fun m hm => hp m (List.mem_cons_of_mem _ hm), h6]
      obtain ⟨n, tg, im, as⟩ := m'
      cases h1; cases h2; cases h3
      rfl
  unfold resolveParameters
  rw [key hx fun m hm a ha t hb => plain_somewhere hp hm ha hb]
  rfl

/-- Hence the compiler makes the same of both. -/
theorem compile_expanded {src src' : Tree} (hg : GoodTemplates src) (hx : Pointwise (ExpandedModule src) src.modules src'.modules) (hp : PlainSource src') (lib : Lib) (fuel : Nat) :
    frontEnd fuel src = frontEnd fuel src' ∧ compile lib fuel src = compile lib fuel src' := by
  have h : frontEnd fuel src = frontEnd fuel src' := by
    unfold frontEnd
    rw [resolveParameters_expanded hg hx hp, parameters_plain hp]
  exact ⟨h, by unfold compile; rw [h]⟩

end FastBer.Ast
