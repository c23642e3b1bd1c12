import Verif.Model.Params
import Verif.Spec.Params
import Verif.Proofs.Identifier
/-! Parameterized types. -/
namespace FastBer.Ast
open Spec

theorem inside_split {t u : AType} (h : Inside t u) : ∃ c, Child t c ∧ (u = c ∨ Inside c u) := by
  induction h with
  | single h => exact ⟨_, h, .inl rfl⟩
  | tail _ h2 ih =>
    obtain ⟨c, h3, rfl | h4⟩ := ih
    · exact ⟨_, h3, .inr (.single h2)⟩
    · exact ⟨c, h3, .inr (.tail h4 h2)⟩

theorem somewhere_iff {P : AType → Prop} {t : AType} : Somewhere P t ↔ P t ∨ ∃ c, Child t c ∧ Somewhere P c := by
  constructor
  · rintro (h | ⟨u, h, hp⟩)
    · exact .inl h
    · refine .inr ?_
      obtain ⟨d, h1, h2⟩ := inside_split h
      refine ⟨d, h1, ?_⟩
      rcases h2 with rfl | h2
      · exact .inl hp
      · exact .inr ⟨_, h2, hp⟩
  · rintro (h | ⟨c, hc, h | ⟨u, hu, hp⟩⟩)
    · exact .inl h
    · exact .inr ⟨c, .single hc, h⟩
    · exact .inr ⟨u, Relation.TransGen.trans (.single hc) hu, hp⟩

theorem _root_.FastBer.Ast.Spec.Somewhere.child {P : AType → Prop} {t c : AType} (hc : Child t c) (h : Somewhere P c) : Somewhere P t :=
  somewhere_iff.2 (.inr ⟨c, hc, h⟩)

/-! ## Substitution -/

/-- What is known about `substParams σ t`. -/
def SubstClaim (σ : List (Name × AType)) (t : AType) : Prop :=
  (Somewhere Parameterized t ∧ substParams σ t = .throw .other) ∨
  (¬ Somewhere Parameterized t ∧ ∃ t', substParams σ t = .ok t' ∧ (¬ Somewhere HasComponentsOf t → t' = substitute (findParam σ) t))

theorem substAlts_claim (σ : List (Name × AType)) (as : List Named) (h : ∀ a ∈ as, SubstClaim σ a.type) :
    ((∃ a ∈ as, Somewhere Parameterized a.type) ∧ substParamsAlts σ as = .throw .other) ∨
    ((∀ a ∈ as, ¬ Somewhere Parameterized a.type) ∧ ∃ as', substParamsAlts σ as = .ok as' ∧
      ((∀ a ∈ as, ¬ Somewhere HasComponentsOf a.type) → as' = substituteAlts (findParam σ) as)) := by
  induction as with
  | nil => exact .inr ⟨by simp, [], rfl, fun _ => rfl⟩
  | cons a as ih =>
    obtain ⟨n, t⟩ := a
    rw [substParamsAlts]
    rcases h (.mk n t) (by simp) with ⟨h1, h2⟩ | ⟨h1, t', h2, h3⟩
    · refine .inl ⟨⟨_, List.mem_cons_self .., h1⟩, ?_⟩
      rw [Named.type] at h2; rw [h2]; rfl
    · rw [Named.type] at h2
      rcases ih fun a ha => h a (by simp [ha]) with ⟨⟨a, ha, k1⟩, k2⟩ | ⟨k1, as', k2, k3⟩
      · refine .inl ⟨⟨a, by simp [ha], k1⟩, ?_⟩
        rw [h2, Res.ok_bind, k2]; rfl
      · refine .inr ⟨fun a ha => ?_, .mk n t' :: as', ?_, fun hc => ?_⟩
        · rcases List.mem_cons.1 ha with rfl | ha
          · exact h1
          · exact k1 a ha
        · rw [h2, Res.ok_bind, k2]; rfl
        · rw [substituteAlts, h3 (hc _ (List.mem_cons_self ..)), k3 fun a ha => hc a (by simp [ha])]; rfl

theorem substComps_claim (σ : List (Name × AType)) (cs : List Comp) (h : ∀ a ∈ cs, SubstClaim σ a.type) :
    ((∃ a ∈ cs, Somewhere Parameterized a.type) ∧ substParamsComps σ cs = .throw .other) ∨
    ((∀ a ∈ cs, ¬ Somewhere Parameterized a.type) ∧ ∃ cs', substParamsComps σ cs = .ok cs' ∧
      ((∀ a ∈ cs, ¬ Somewhere HasComponentsOf a.type ∧ a.componentsOf = none) → cs' = substituteComps (findParam σ) cs)) := by
  induction cs with
  | nil => exact .inr ⟨by simp, [], rfl, fun _ => rfl⟩
  | cons a cs ih =>
    obtain ⟨n, t, o, d, co, s⟩ := a
    rw [substParamsComps]
    rcases h (.mk n t o d co s) (by simp) with ⟨h1, h2⟩ | ⟨h1, t', h2, h3⟩
    · refine .inl ⟨⟨_, List.mem_cons_self .., h1⟩, ?_⟩
      rw [Comp.type] at h2; rw [h2]; rfl
    · rw [Comp.type] at h2
      rcases ih fun a ha => h a (by simp [ha]) with ⟨⟨a, ha, k1⟩, k2⟩ | ⟨k1, as', k2, k3⟩
      · refine .inl ⟨⟨a, by simp [ha], k1⟩, ?_⟩
        rw [h2, Res.ok_bind, k2]; rfl
      · refine .inr ⟨fun a ha => ?_, .mk n t' o d co s :: as', ?_, fun hc => ?_⟩
        · rcases List.mem_cons.1 ha with rfl | ha
          · exact h1
          · exact k1 a ha
        · rw [h2, Res.ok_bind, k2]; rfl
        · have hco : co = none := (hc _ (List.mem_cons_self ..)).2
          rw [substituteComps, h3 (hc _ (List.mem_cons_self ..)).1, k3 fun a ha => hc a (by simp [ha]), hco, substituteOpt]; rfl

theorem not_somewhere_leaf {P : AType → Prop} {t : AType} (hc : ∀ c, ¬ Child t c) (hp : ¬ P t) : ¬ Somewhere P t := by
  rw [somewhere_iff]
  rintro (h | ⟨c, h, _⟩)
  · exact hp h
  · exact hc c h

theorem substParams_claim (σ : List (Name × AType)) : ∀ t, SubstClaim σ t
  | .leaf k => .inr ⟨not_somewhere_leaf (fun c h => by cases h) (by rintro ⟨_, _, _, h, _⟩; cases h), _, rfl, fun _ => rfl⟩
  | .objField .. => .inr ⟨not_somewhere_leaf (fun c h => by cases h) (by rintro ⟨_, _, _, h, _⟩; cases h), _, rfl, fun _ => rfl⟩
  | .defined m ref args => by
    unfold SubstClaim
    rw [substParams]
    have hch : ∀ c, ¬ Child (.defined m ref args) c := fun c h => by cases h
    cases args with
    | cons a args => exact .inl ⟨.inl ⟨m, ref, _, rfl, by simp⟩, by simp⟩
    | nil =>
      refine .inr ⟨not_somewhere_leaf hch (by rintro ⟨_, _, _, h, h'⟩; cases h; exact h' rfl), ?_⟩
      simp only [List.length_nil, gt_iff_lt, Nat.lt_irrefl, if_false]
      cases m with
      | some m => exact ⟨_, rfl, fun _ => by simp [substitute, substituteArgs]⟩
      | none =>
        simp only [Option.isNone_none, if_true]
        cases hf : findParam σ ref with
        | none => exact ⟨_, rfl, fun _ => by simp [substitute, hf, substituteArgs]⟩
        | some a => exact ⟨_, rfl, fun _ => by simp [substitute, hf]⟩
  | .choice as s => by
    have ih : ∀ a ∈ as, SubstClaim σ a.type := fun a ha => by
      have := List.sizeOf_lt_of_mem ha
      have : sizeOf a.type < sizeOf a := by cases a; simp [Named.type]; omega
      exact substParams_claim σ a.type
    unfold SubstClaim
    rw [substParams]
    rcases substAlts_claim σ as ih with ⟨⟨a, ha, h1⟩, h2⟩ | ⟨h1, as', h2, h3⟩
    · exact .inl ⟨.child (.choice ha) h1, by rw [h2]; rfl⟩
    · refine .inr ⟨?_, _, by rw [h2]; rfl, fun hc => ?_⟩
      · rw [somewhere_iff]
        rintro (⟨_, _, _, h, _⟩ | ⟨c, h, hs⟩)
        · cases h
        · cases h with | choice ha => exact h1 _ ha hs
      · rw [substitute, h3 fun a ha h => hc (.child (.choice ha) h)]
  | .sequence cs e => by
    have ih : ∀ a ∈ cs, SubstClaim σ a.type := fun a ha => by
      have := List.sizeOf_lt_of_mem ha
      have : sizeOf a.type < sizeOf a := by cases a; simp [Comp.type]; omega
      exact substParams_claim σ a.type
    unfold SubstClaim
    rw [substParams]
    rcases substComps_claim σ cs ih with ⟨⟨a, ha, h1⟩, h2⟩ | ⟨h1, as', h2, h3⟩
    · exact .inl ⟨.child (.sequence ha) h1, by rw [h2]; rfl⟩
    · refine .inr ⟨?_, _, by rw [h2]; rfl, fun hc => ?_⟩
      · rw [somewhere_iff]
        rintro (⟨_, _, _, h, _⟩ | ⟨c, h, hs⟩)
        · cases h
        · cases h with | sequence ha => exact h1 _ ha hs
      · rw [substitute, h3 fun a ha => ⟨fun h => hc (.child (.sequence ha) h), Classical.byContradiction fun h =>
          hc (.inl ⟨cs, e, .inl rfl, a, ha, h⟩)⟩]
  | .set cs e => by
    have ih : ∀ a ∈ cs, SubstClaim σ a.type := fun a ha => by
      have := List.sizeOf_lt_of_mem ha
      have : sizeOf a.type < sizeOf a := by cases a; simp [Comp.type]; omega
      exact substParams_claim σ a.type
    unfold SubstClaim
    rw [substParams]
    rcases substComps_claim σ cs ih with ⟨⟨a, ha, h1⟩, h2⟩ | ⟨h1, as', h2, h3⟩
    · exact .inl ⟨.child (.set ha) h1, by rw [h2]; rfl⟩
    · refine .inr ⟨?_, _, by rw [h2]; rfl, fun hc => ?_⟩
      · rw [somewhere_iff]
        rintro (⟨_, _, _, h, _⟩ | ⟨c, h, hs⟩)
        · cases h
        · cases h with | set ha => exact h1 _ ha hs
      · rw [substitute, h3 fun a ha => ⟨fun h => hc (.child (.set ha) h), Classical.byContradiction fun h =>
          hc (.inl ⟨cs, e, .inr rfl, a, ha, h⟩)⟩]
  | .seqOf n t s => by
    unfold SubstClaim
    rw [substParams]
    rcases substParams_claim σ t with ⟨h1, h2⟩ | ⟨h1, t', h2, h3⟩
    · exact .inl ⟨.child .seqOf h1, by rw [h2]; rfl⟩
    · refine .inr ⟨?_, _, by rw [h2]; rfl, fun hc => ?_⟩
      · rw [somewhere_iff]
        rintro (⟨_, _, _, h, _⟩ | ⟨c, h, hs⟩)
        · cases h
        · cases h; exact h1 hs
      · rw [substitute, h3 fun h => hc (.child .seqOf h)]
  | .setOf n t s => by
    unfold SubstClaim
    rw [substParams]
    rcases substParams_claim σ t with ⟨h1, h2⟩ | ⟨h1, t', h2, h3⟩
    · exact .inl ⟨.child .setOf h1, by rw [h2]; rfl⟩
    · refine .inr ⟨?_, _, by rw [h2]; rfl, fun hc => ?_⟩
      · rw [somewhere_iff]
        rintro (⟨_, _, _, h, _⟩ | ⟨c, h, hs⟩)
        · cases h
        · cases h; exact h1 hs
      · rw [substitute, h3 fun h => hc (.child .setOf h)]
  | .prefixed c n m t => by
    unfold SubstClaim
    rw [substParams]
    rcases substParams_claim σ t with ⟨h1, h2⟩ | ⟨h1, t', h2, h3⟩
    · exact .inl ⟨.child .prefixed h1, by rw [h2]; rfl⟩
    · refine .inr ⟨?_, _, by rw [h2]; rfl, fun hc => ?_⟩
      · rw [somewhere_iff]
        rintro (⟨_, _, _, h, _⟩ | ⟨c, h, hs⟩)
        · cases h
        · cases h; exact h1 hs
      · rw [substitute, h3 fun h => hc (.child .prefixed h)]
termination_by t => sizeOf t

/-- For different parameter names the map is the one that was meant. -/
theorem findParam_paramTypes : ∀ (ps : List Param) (args : List AType), (ps.map (·.reference)).Nodup →
    findParam (paramTypes ps args) = argument ps args := by
  intro ps
  induction ps with
  | nil => intro args _; funext n; simp [findParam, paramTypes, argument]
  | cons p ps ih =>
    intro args hn
    rw [List.map_cons, List.nodup_cons] at hn
    cases args with
    | nil => funext n; simp [findParam, paramTypes, argument]
    | cons a args =>
      funext n
      have ih := congrFun (ih args hn.2) n
      rw [argument]
      unfold findParam paramTypes at *
      rw [List.map_cons, List.zip_cons_cons, List.reverse_cons, List.find?_append]
      by_cases e : n = p.reference
      · subst e
        have : (((ps.map (·.reference)).zip args).reverse).find? (fun x => x.1 == p.reference) = none := by
          rw [List.find?_eq_none]
          intro x hx
          simp only [List.mem_reverse] at hx
          have := List.of_mem_zip hx
          intro h
          simp only [beq_iff_eq] at h
          exact hn.1 (h ▸ this.1)
        rw [this]; simp
      · rw [if_neg e, ← ih]
        have : ((p.reference, a).1 == n) = false := by simpa using fun h => e h.symm
        simp [this]

/-! ## References -/

theorem instantiate_ok {tree : Tree} {mod : Name} {m : Option Name} {ref : Name} {args : List AType} {t : AType}
    (h : instantiate tree mod m ref args = .ok t) : ∃ ps body, template tree (m.getD mod) ref = some (ps, body) ∧
      ps.length = args.length ∧ substParams (paramTypes ps args) body = .ok t := by
  unfold instantiate at h
  obtain ⟨wm, h1, h⟩ := Res.bind_eq_ok.1 h
  obtain ⟨a, h2, h⟩ := Res.bind_eq_ok.1 h
  split at h
  · cases h
  · rename_i hl
    split at h
    · rename_i body hb
      refine ⟨a.params, body, ?_, by simpa using hl, h⟩
      unfold findModule at h1
      unfold findAssignment at h2
      unfold template
      split at h1
      · rename_i m' hm
        cases h1
        split at h2
        · rename_i a' ha
          cases h2
          simp [hm, ha, hb]
        · cases h2
      · cases h1
    · cases h

theorem instantiate_of_template {tree : Tree} {mod : Name} {m : Option Name} {ref : Name} {args : List AType} {ps : List Param}
    {body : AType} (h : template tree (m.getD mod) ref = some (ps, body)) (hl : ps.length = args.length) :
    instantiate tree mod m ref args = substParams (paramTypes ps args) body := by
  unfold template at h
  unfold instantiate findModule
  cases hm : tree.modules.find? (·.name == m.getD mod) with
  | none => rw [hm] at h; cases h
  | some wm =>
    rw [hm, Option.bind_some] at h
    dsimp only
    rw [Res.ok_bind]
    unfold findAssignment
    cases ha : wm.assignments.find? (·.name == ref) with
    | none => rw [ha] at h; cases h
    | some a =>
      rw [ha, Option.bind_some] at h
      dsimp only
      rw [Res.ok_bind]
      cases hb : a.body with
      | type t =>
        rw [hb] at h
        cases h
        simp [hl]
      | value => rw [hb] at h; cases h
      | objectClass => rw [hb] at h; cases h
      | objectSet => rw [hb] at h; cases h

/-- The claim about `toConcrete tree mod t`. -/
def ConcreteClaim (tree : Tree) (mod : Name) (t : AType) : Prop :=
  (∀ t', toConcrete tree mod t = .ok t' → ¬ Somewhere HasComponentsOf t → Expanded tree mod t t') ∧
  (¬ Somewhere Parameterized t → toConcrete tree mod t = .ok t)

theorem toConcreteAlts_claim {tree : Tree} {mod : Name} (as : List Named) (h : ∀ a ∈ as, ConcreteClaim tree mod a.type) :
    (∀ as', toConcreteAlts tree mod as = .ok as' → (∀ a ∈ as, ¬ Somewhere HasComponentsOf a.type) → ExpandedAlts tree mod as as') ∧
    ((∀ a ∈ as, ¬ Somewhere Parameterized a.type) → toConcreteAlts tree mod as = .ok as) := by
  induction as with
  | nil => exact ⟨fun as' h _ => by cases h; exact .nil, fun _ => rfl⟩
  | cons a as ih =>
    obtain ⟨n, t⟩ := a
    rw [toConcreteAlts]
    have ih := ih fun a ha => h a (by simp [ha])
    have ht := h (.mk n t) (by simp)
    refine ⟨fun as' he hc => ?_, fun hp => ?_⟩
    · obtain ⟨t', h1, he⟩ := Res.bind_eq_ok.1 he
      obtain ⟨as'', h2, he⟩ := Res.bind_eq_ok.1 he
      cases he
      exact .cons (ht.1 t' h1 (hc _ (List.mem_cons_self ..))) (ih.1 _ h2 fun a ha => hc a (by simp [ha]))
    · have := ht.2 (hp _ (List.mem_cons_self ..))
      rw [Named.type] at this
      rw [this, Res.ok_bind, ih.2 fun a ha => hp a (by simp [ha])]; rfl

theorem toConcreteComps_claim {tree : Tree} {mod : Name} (cs : List Comp) (h : ∀ a ∈ cs, ConcreteClaim tree mod a.type) :
    (∀ cs', toConcreteComps tree mod cs = .ok cs' → (∀ a ∈ cs, ¬ Somewhere HasComponentsOf a.type ∧ a.componentsOf = none) →
      ExpandedComps tree mod cs cs') ∧
    ((∀ a ∈ cs, ¬ Somewhere Parameterized a.type) → toConcreteComps tree mod cs = .ok cs) := by
  induction cs with
  | nil => exact ⟨fun as' h _ => by cases h; exact .nil, fun _ => rfl⟩
  | cons a cs ih =>
    obtain ⟨n, t, o, d, co, s⟩ := a
    rw [toConcreteComps]
    have ih := ih fun a ha => h a (by simp [ha])
    have ht := h (.mk n t o d co s) (by simp)
    refine ⟨fun as' he hc => ?_, fun hp => ?_⟩
    · obtain ⟨t', h1, he⟩ := Res.bind_eq_ok.1 he
      obtain ⟨as'', h2, he⟩ := Res.bind_eq_ok.1 he
      cases he
      have hco : co = none := (hc _ (List.mem_cons_self ..)).2
      subst hco
      exact .cons (ht.1 t' h1 (hc _ (List.mem_cons_self ..)).1) (ih.1 _ h2 fun a ha => hc a (by simp [ha]))
    · have := ht.2 (hp _ (List.mem_cons_self ..))
      rw [Comp.type] at this
      rw [this, Res.ok_bind, ih.2 fun a ha => hp a (by simp [ha])]; rfl

theorem toConcrete_claim {tree : Tree} (hg : GoodTemplates tree) (mod : Name) : ∀ t, ConcreteClaim tree mod t
  | .leaf k => ⟨fun t' h _ => by cases h; exact .leaf k, fun _ => rfl⟩
  | .objField m c fs => ⟨fun t' h _ => by cases h; exact .objField m c fs, fun _ => rfl⟩
  | .defined m ref args => by
    unfold ConcreteClaim
    rw [toConcrete]
    cases args with
    | nil => exact ⟨fun t' h _ => by cases h; exact .plain m ref, fun _ => rfl⟩
    | cons a args =>
      refine ⟨fun t' h _ => ?_, fun h => absurd (.inl ⟨m, ref, _, rfl, by simp⟩) h⟩
      rw [if_pos (by simp)] at h
      obtain ⟨ps, body, h1, h2, h3⟩ := instantiate_ok h
      obtain ⟨g1, g2⟩ := hg _ _ _ _ h1 (by intro e; subst e; simp at h2)
      rcases substParams_claim (paramTypes ps (a :: args)) body with ⟨_, k2⟩ | ⟨_, t'', k2, k3⟩
      · rw [h3] at k2; cases k2
      · rw [h3] at k2; cases k2
        rw [k3 g2, findParam_paramTypes _ _ g1]
        exact .instance (by simp) h1 h2
  | .choice as s => by
    have ih : ∀ a ∈ as, ConcreteClaim tree mod a.type := fun a ha => by
      have := List.sizeOf_lt_of_mem ha
      have : sizeOf a.type < sizeOf a := by cases a; simp [Named.type]; omega
      exact toConcrete_claim hg mod a.type
    unfold ConcreteClaim
    rw [toConcrete]
    obtain ⟨h1, h2⟩ := toConcreteAlts_claim as ih
    refine ⟨fun t' h hc => ?_, fun hp => ?_⟩
    · obtain ⟨as', k1, k2⟩ := Res.bind_eq_ok.1 h
      cases k2
      exact .choice s (h1 _ k1 fun a ha h => hc (.child (.choice ha) h))
    · rw [h2 fun a ha h => hp (.child (.choice ha) h)]; rfl
  | .sequence cs e => by
    have ih : ∀ a ∈ cs, ConcreteClaim tree mod a.type := fun a ha => by
      have := List.sizeOf_lt_of_mem ha
      have : sizeOf a.type < sizeOf a := by cases a; simp [Comp.type]; omega
      exact toConcrete_claim hg mod a.type
    unfold ConcreteClaim
    rw [toConcrete]
    obtain ⟨h1, h2⟩ := toConcreteComps_claim cs ih
    refine ⟨fun t' h hc => ?_, fun hp => ?_⟩
    · obtain ⟨as', k1, k2⟩ := Res.bind_eq_ok.1 h
      cases k2
      exact .sequence e (h1 _ k1 fun a ha => ⟨fun h => hc (.child (.sequence ha) h), Classical.byContradiction fun h =>
          hc (.inl ⟨cs, e, .inl rfl, a, ha, h⟩)⟩)
    · rw [h2 fun a ha h => hp (.child (.sequence ha) h)]; rfl
  | .set cs e => by
    have ih : ∀ a ∈ cs, ConcreteClaim tree mod a.type := fun a ha => by
      have := List.sizeOf_lt_of_mem ha
      have : sizeOf a.type < sizeOf a := by cases a; simp [Comp.type]; omega
      exact toConcrete_claim hg mod a.type
    unfold ConcreteClaim
    rw [toConcrete]
    obtain ⟨h1, h2⟩ := toConcreteComps_claim cs ih
    refine ⟨fun t' h hc => ?_, fun hp => ?_⟩
    · obtain ⟨as', k1, k2⟩ := Res.bind_eq_ok.1 h
      cases k2
      exact .set e (h1 _ k1 fun a ha => ⟨fun h => hc (.child (.set ha) h), Classical.byContradiction fun h =>
          hc (.inl ⟨cs, e, .inr rfl, a, ha, h⟩)⟩)
    · rw [h2 fun a ha h => hp (.child (.set ha) h)]; rfl
  | .seqOf n t s => by
    obtain ⟨h1, h2⟩ := toConcrete_claim hg mod t
    unfold ConcreteClaim
    rw [toConcrete]
    refine ⟨fun t' h hc => ?_, fun hp => ?_⟩
    · obtain ⟨t'', k1, k2⟩ := Res.bind_eq_ok.1 h
      cases k2
      exact .seqOf n s (h1 _ k1 fun h => hc (.child .seqOf h))
    · rw [h2 fun h => hp (.child .seqOf h)]; rfl
  | .setOf n t s => by
    obtain ⟨h1, h2⟩ := toConcrete_claim hg mod t
    unfold ConcreteClaim
    rw [toConcrete]
    refine ⟨fun t' h hc => ?_, fun hp => ?_⟩
    · obtain ⟨t'', k1, k2⟩ := Res.bind_eq_ok.1 h
      cases k2
      exact .setOf n s (h1 _ k1 fun h => hc (.child .setOf h))
    · rw [h2 fun h => hp (.child .setOf h)]; rfl
  | .prefixed c n m t => by
    obtain ⟨h1, h2⟩ := toConcrete_claim hg mod t
    unfold ConcreteClaim
    rw [toConcrete]
    refine ⟨fun t' h hc => ?_, fun hp => ?_⟩
    · obtain ⟨t'', k1, k2⟩ := Res.bind_eq_ok.1 h
      cases k2
      exact .prefixed c n m (h1 _ k1 fun h => hc (.child .prefixed h))
    · rw [h2 fun h => hp (.child .prefixed h)]; rfl
termination_by t => sizeOf t

end FastBer.Ast

namespace FastBer.Ast
open Spec

theorem pointwise_mapM {α β : Type} {f : α → Res β} {r : α → β → Prop} : ∀ (l : List α) (l' : List β), l.mapM f = .ok l' →
    (∀ a b, a ∈ l → f a = .ok b → r a b) → Pointwise r l l' := by
  intro l
  induction l with
  | nil => intro l' h _; cases h; exact .nil
  | cons a l ih =>
    intro l' h hr
    rw [List.mapM_cons] at h
    obtain ⟨b, h1, h⟩ := Res.bind_eq_ok.1 h
    obtain ⟨l'', h2, h⟩ := Res.bind_eq_ok.1 h
    cases h
    exact .cons (hr a b (by simp) h1) (ih l'' h2 fun a b ha => hr a b (by simp [ha]))

theorem pointwise_filter {α β : Type} {r r' : α → β → Prop} {p : α → Bool} {q : β → Bool} {l : List α} {l' : List β}
    (h : Pointwise r l l') (hr : ∀ a b, r a b → p a = q b ∧ (p a = true → r' a b)) : Pointwise r' (l.filter p) (l'.filter q) := by
  induction h with
  | nil => exact .nil
  | @cons a b as bs hab _ ih =>
    obtain ⟨h1, h2⟩ := hr a b hab
    rw [List.filter_cons, List.filter_cons, ← h1]
    split
    · rename_i hp; exact .cons (h2 hp) ih
    · exact ih

/-- Whole trees. -/
theorem resolveParameters_ok {tree tree' : Tree} (hg : GoodTemplates tree)
    (hc : ∀ m ∈ tree.modules, ∀ a ∈ m.assignments, a.params = [] → ∀ t, a.body = .type t → ¬ Somewhere HasComponentsOf t)
    (h : resolveParameters tree = .ok tree') : Pointwise (ExpandedModule tree) tree.modules tree'.modules := by
  unfold resolveParameters at h
  obtain ⟨ms, h1, h2⟩ := Res.bind_eq_ok.1 h
  cases h2
  refine pointwise_mapM _ _ h1 fun m m' hm hmm => ?_
  obtain ⟨as, h3, h4⟩ := Res.bind_eq_ok.1 hmm
  cases h4
  refine ⟨rfl, rfl, rfl, ?_⟩
  dsimp only
  have hp := pointwise_mapM (r := fun a b => a ∈ m.assignments ∧ concreteAssignment tree m.name a = .ok b) _ _ h3
    fun a b ha hab => ⟨ha, hab⟩
  refine pointwise_filter hp fun a b ⟨ha, hab⟩ => ?_
  obtain ⟨n, body, ps⟩ := a
  unfold concreteAssignment at hab
  cases body with
  | type t =>
    dsimp only at hab
    split at hab
    · rename_i he
      obtain ⟨t', k1, k2⟩ := Res.bind_eq_ok.1 hab
      cases k2
      have hps : ps = [] := List.eq_nil_of_length_eq_zero he
      subst hps
      refine ⟨rfl, fun _ => .type ((toConcrete_claim hg m.name t).1 t' k1 (hc m hm _ ha rfl t rfl))⟩
    · rename_i he
      cases hab
      refine ⟨?_, fun hp => ?_⟩
      · cases ps with
        | nil => simp at he
        | cons => simp
      · cases ps with
        | nil => simp at he
        | cons => simp at hp
  | value | objectClass | objectSet =>
    cases hab
    refine ⟨by cases ps <;> simp, fun hp => .other (by intro t h; cases h) ?_⟩
    simpa using hp

/-- Nothing to do: only the templates are removed. -/
theorem resolveParameters_unused {tree : Tree} (hg : GoodTemplates tree)
    (hc : ∀ m ∈ tree.modules, ∀ a ∈ m.assignments, a.params = [] → ∀ t, a.body = .type t → ¬ Somewhere Parameterized t) :
    resolveParameters tree = .ok ⟨tree.modules.map fun m => { m with assignments := m.assignments.filter fun a => a.params.isEmpty }⟩ := by
  have mapM_ok : ∀ {α β : Type} (f : α → Res β) (g : α → β) (l : List α), (∀ a ∈ l, f a = .ok (g a)) → l.mapM f = .ok (l.map g) := by
    intro α β f g l
    induction l with
    | nil => intro _; rfl
    | cons a l ih => intro h; rw [List.mapM_cons, h a (by simp), Res.ok_bind, ih fun a ha => h a (by simp [ha])]; rfl
  unfold resolveParameters
  rw [mapM_ok _ (fun m => { m with assignments := m.assignments.filter fun a => a.params.isEmpty }) _ ?_]
  · rfl
  · intro m hm
    have : m.assignments.mapM (concreteAssignment tree m.name) = .ok (m.assignments.map id) := by
      refine mapM_ok _ id _ fun a ha => ?_
      unfold concreteAssignment
      split
      · rename_i t hb
        split
        · rename_i he
          rw [(toConcrete_claim hg m.name t).2 (hc m hm a ha (List.eq_nil_of_length_eq_zero he) t hb), Res.ok_bind, ← hb]
          rfl
        · rfl
      · rfl
    rw [this, Res.ok_bind, List.map_id]
    congr 2
    apply List.filter_congr
    intro a _
    cases a.params <;> simp

end FastBer.Ast
