import Verif.Proofs.ForwardOrder
import Verif.Proofs.ForwardStart
/-!
# Types with a value to begin with, in the source and in the output
-/
namespace FastBer.Ast
open FastBer.Ast.Spec FastBer.Spec

theorem Follows.startable {T : Tree} {m m' : Module} {t t' : AType} (h : Follows T m t m' t') (hu : Startable T m' t') : Startable T m t := by
  induction h with
  | refl => exact hu
  | step h _ ih => exact .reference _ h (ih hu)

theorem Sim.startable {T1 T2 : Tree} {R : RefRel} (hc : Corr T1 T2 R) {m1 : Module} {t1 : AType} (h1 : Startable T1 m1 t1) :
    ∀ {m2 : Module} {t2 : AType}, Sim T1 T2 R m1 t1 m2 t2 → Startable T2 m2 t2 := by
  induction h1 with
  | reference ps ht _ ih =>
    intro m2 t2 h
    obtain ⟨m2', t2', hf, hs⟩ := h.deref hc ht
    exact hf.startable (ih hs)
  | leaf =>
    intro m2 t2 h
    obtain ⟨m2', t2', hf, hs, hn⟩ := h.head (by intros; nofun)
    refine hf.startable ?_
    cases hs with
    | right => exact absurd rfl (hn _ _ _)
    | leaf => exact .leaf _ _
  | seqOf =>
    intro m2 t2 h
    obtain ⟨m2', t2', hf, hs, hn⟩ := h.head (by intros; nofun)
    refine hf.startable ?_
    cases hs with
    | right => exact absurd rfl (hn _ _ _)
    | seqOf => exact .seqOf _ _ _ _
  | setOf =>
    intro m2 t2 h
    obtain ⟨m2', t2', hf, hs, hn⟩ := h.head (by intros; nofun)
    refine hf.startable ?_
    cases hs with
    | right => exact absurd rfl (hn _ _ _)
    | setOf => exact .setOf _ _ _ _
  | prefixed c n k _ ih =>
    intro m2 t2 h
    obtain ⟨m2', t2', hf, hs, hn⟩ := h.head (by intros; nofun)
    refine hf.startable ?_
    cases hs with
    | right => exact absurd rfl (hn _ _ _)
    | prefixed _ _ _ _ hs => exact .prefixed _ _ _ (ih hs)
  | choice as s _ ih =>
    intro m2 t2 h
    obtain ⟨m2', t2', hf, hs, hn⟩ := h.head (by intros; nofun)
    refine hf.startable ?_
    cases hs with
    | right => exact absurd rfl (hn _ _ _)
    | @choice _ _ _ as' _ s' _ hl _ h4 =>
      cases as' with
      | nil => cases hl
      | cons a' as' => exact .choice _ _ (ih (h4 0 _ _ rfl rfl))
  | sequence e _ ih =>
    intro m2 t2 h
    obtain ⟨m2', t2', hf, hs, hn⟩ := h.head (by intros; nofun)
    refine hf.startable ?_
    cases hs with
    | right => exact absurd rfl (hn _ _ _)
    | sequence _ _ hl h3 h4 =>
      refine .sequence _ fun c' hc' ho hd => ?_
      obtain ⟨i, hi⟩ := List.getElem?_of_mem hc'
      obtain ⟨c, hcc⟩ := get_other hl.symm hi
      obtain ⟨-, -, h5, h6⟩ := h3 i c c' hcc hi
      exact ih c (List.mem_of_getElem? hcc) (h5.trans ho) (h6.trans hd) (h4 i c c' hcc hi)
  | set e _ ih =>
    intro m2 t2 h
    obtain ⟨m2', t2', hf, hs, hn⟩ := h.head (by intros; nofun)
    refine hf.startable ?_
    cases hs with
    | right => exact absurd rfl (hn _ _ _)
    | set _ _ hl h3 h4 =>
      refine .set _ fun c' hc' ho hd => ?_
      obtain ⟨i, hi⟩ := List.getElem?_of_mem hc'
      obtain ⟨c, hcc⟩ := get_other hl.symm hi
      obtain ⟨-, -, h5, h6⟩ := h3 i c c' hcc hi
      exact ih c (List.mem_of_getElem? hcc) (h5.trans ho) (h6.trans hd) (h4 i c c' hcc hi)

theorem startable_stands {T1 T2 : Tree} {R : RefRel} (hc : Corr T1 T2 R) (hs : Stands T1 T2 R) (ht1 : ∀ mod t, Occurs T1 mod t → TagSafe T1 mod t)
    (ht2 : ∀ mod t, Occurs T2 mod t → TagSafe T2 mod t) (ha : AllStartable T1) : AllStartable T2 := by
  have key : ∀ {m2 : Module} {t2 : AType}, TagSafe T2 m2 t2 → Occurs T2 m2 t2 → Startable T2 m2 t2 := by
    intro m2 t2 hsafe
    have base : (∀ q ref ps, t2 ≠ .defined q ref ps) → Occurs T2 m2 t2 → Startable T2 m2 t2 := by
      intro hn ho
      obtain ⟨m1, t1, ho1, -, hsim⟩ := hs m2 t2 ho hn
      exact Sim.startable hc (Fwd.startable_of_occurs ht1 ha t1 ho1) hsim
    induction hsafe with
    | reference ht _ ih =>
      intro _
      obtain ⟨hw, _, a, ha', _, hab⟩ := target_mem ht
      have ho : Occurs T2 _ _ := .assigned hw ha' hab
      refine .reference _ ht (ih ?_ ho)
      intro hn ho
      obtain ⟨m1, t1, ho1, -, hsim⟩ := hs _ _ ho hn
      exact Sim.startable hc (Fwd.startable_of_occurs ht1 ha t1 ho1) hsim
    | _ => exact base (by intros; nofun)
  exact fun mod hm a ha' t hb => key (ht2 _ _ (.assigned hm ha' hb)) (.assigned hm ha' hb)

end FastBer.Ast
