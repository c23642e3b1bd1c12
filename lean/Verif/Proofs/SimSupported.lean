import Verif.Proofs.Pipeline
import Verif.Spec.SupportedSource
import Verif.Proofs.EmitType
/-!
# Restrictions on schemas and the simulation
-/
namespace FastBer.Ast
open FastBer.Ast.Spec FastBer.Spec

theorem Follows.tagSafe {T : Tree} {m m' : Module} {t t' : AType} (h : Follows T m t m' t') (hu : TagSafe T m' t') : TagSafe T m t := by
  induction h with
  | refl => exact hu
  | step ht _ ih => exact .reference ht (ih hu)

theorem Follows.begins {T : Tree} {m m' : Module} {t t' : AType} (h : Follows T m t m' t') (hu : Begins T m' t') : Begins T m t := by
  induction h with
  | refl => exact hu
  | step ht _ ih => exact .reference ht (ih hu)

theorem Sim.begins {T1 T2 : Tree} {R : RefRel} (hc : Corr T1 T2 R) {m1 m2 : Module} {t1 t2 : AType} (h : Sim T1 T2 R m1 t1 m2 t2)
    (hu : Begins T1 m1 t1) : Begins T2 m2 t2 := by
  induction hu generalizing m2 t2 with
  | reference ht _ ih =>
    obtain ⟨m2', t2', hf, hs⟩ := h.deref hc ht
    exact hf.begins (ih hs)
  | leaf hk =>
    obtain ⟨m2', t2', hf, hs, hn⟩ := h.head (by intros; nofun)
    refine hf.begins ?_
    cases hs with
    | right => exact absurd rfl (hn _ _ _)
    | leaf => exact .leaf hk
  | sequence =>
    obtain ⟨m2', t2', hf, hs, hn⟩ := h.head (by intros; nofun)
    refine hf.begins ?_
    cases hs with
    | right => exact absurd rfl (hn _ _ _)
    | sequence => exact .sequence ..
  | set =>
    obtain ⟨m2', t2', hf, hs, hn⟩ := h.head (by intros; nofun)
    refine hf.begins ?_
    cases hs with
    | right => exact absurd rfl (hn _ _ _)
    | set => exact .set ..
  | seqOf =>
    obtain ⟨m2', t2', hf, hs, hn⟩ := h.head (by intros; nofun)
    refine hf.begins ?_
    cases hs with
    | right => exact absurd rfl (hn _ _ _)
    | seqOf => exact .seqOf ..
  | setOf =>
    obtain ⟨m2', t2', hf, hs, hn⟩ := h.head (by intros; nofun)
    refine hf.begins ?_
    cases hs with
    | right => exact absurd rfl (hn _ _ _)
    | setOf => exact .setOf ..
  | choice hne _ ih =>
    obtain ⟨m2', t2', hf, hs, hn⟩ := h.head (by intros; nofun)
    refine hf.begins ?_
    cases hs with
    | right => exact absurd rfl (hn _ _ _)
    | choice s s' ht hl h3 h4 =>
      refine .choice ?_ fun hm a' ha' => ?_
      · rintro rfl
        exact hne (List.length_eq_zero_iff.1 hl)
      · obtain ⟨i, hi⟩ := List.getElem?_of_mem ha'
        obtain ⟨a, ha⟩ := get_other hl.symm hi
        exact ih (by rw [ht]; exact hm) a (List.mem_of_getElem? ha) (h4 i _ _ ha hi)
  | prefixed =>
    obtain ⟨m2', t2', hf, hs, hn⟩ := h.head (by intros; nofun)
    refine hf.begins ?_
    cases hs with
    | right => exact absurd rfl (hn _ _ _)
    | prefixed c n k ht hs => exact .prefixed ..

theorem Sim.tagSafe {T1 T2 : Tree} {R : RefRel} (hc : Corr T1 T2 R) {m1 m2 : Module} {t1 t2 : AType} (h : Sim T1 T2 R m1 t1 m2 t2)
    (hu : TagSafe T1 m1 t1) : TagSafe T2 m2 t2 := by
  induction hu generalizing m2 t2 with
  | reference ht _ ih =>
    obtain ⟨m2', t2', hf, hs⟩ := h.deref hc ht
    exact hf.tagSafe (ih hs)
  | leaf hk =>
    obtain ⟨m2', t2', hf, hs, hn⟩ := h.head (by intros; nofun)
    refine hf.tagSafe ?_
    cases hs with
    | right => exact absurd rfl (hn _ _ _)
    | leaf => exact .leaf hk
  | sequence =>
    obtain ⟨m2', t2', hf, hs, hn⟩ := h.head (by intros; nofun)
    refine hf.tagSafe ?_
    cases hs with
    | right => exact absurd rfl (hn _ _ _)
    | sequence => exact .sequence ..
  | set =>
    obtain ⟨m2', t2', hf, hs, hn⟩ := h.head (by intros; nofun)
    refine hf.tagSafe ?_
    cases hs with
    | right => exact absurd rfl (hn _ _ _)
    | set => exact .set ..
  | seqOf =>
    obtain ⟨m2', t2', hf, hs, hn⟩ := h.head (by intros; nofun)
    refine hf.tagSafe ?_
    cases hs with
    | right => exact absurd rfl (hn _ _ _)
    | seqOf => exact .seqOf ..
  | setOf =>
    obtain ⟨m2', t2', hf, hs, hn⟩ := h.head (by intros; nofun)
    refine hf.tagSafe ?_
    cases hs with
    | right => exact absurd rfl (hn _ _ _)
    | setOf => exact .setOf ..
  | choice hb =>
    obtain ⟨m2', t2', hf, hs, hn⟩ := h.head (by intros; nofun)
    refine hf.tagSafe ?_
    cases hs with
    | right => exact absurd rfl (hn _ _ _)
    | choice _ _ ht hl h3 h4 => exact .choice (Sim.begins hc (.choice _ _ ht hl h3 h4) hb)
  | prefixed _ ho ha he ih =>
    obtain ⟨m2', t2', hf, hs, hn⟩ := h.head (by intros; nofun)
    refine hf.tagSafe ?_
    cases hs with
    | right => exact absurd rfl (hn _ _ _)
    | prefixed c n k ht hs =>
      exact .prefixed (ih hs) (hs.ownTags hc ho) (fun hk => ht ▸ ha hk) fun hx => he ((hs.explicit_iff hc ht _).2 hx)
  | prefixedChoice _ ho hi ih =>
    obtain ⟨m2', t2', hf, hs, hn⟩ := h.head (by intros; nofun)
    refine hf.tagSafe ?_
    cases hs with
    | right => exact absurd rfl (hn _ _ _)
    | prefixed c n k ht hs => exact .prefixedChoice (ih hs) (hs.ownTags hc ho) (ht ▸ hi)

theorem Follows.taggedStruct {T : Tree} {m m' : Module} {t t' : AType} (h : Follows T m t m' t') (hu : TaggedStruct T m' t') : TaggedStruct T m t := by
  induction h with
  | refl => exact hu
  | step ht _ ih => exact .reference ht (ih hu)

theorem Sim.taggedStruct {T1 T2 : Tree} {R : RefRel} (hc : Corr T1 T2 R) {m1 m2 : Module} {t1 t2 : AType} (h : Sim T1 T2 R m1 t1 m2 t2)
    (hu : TaggedStruct T1 m1 t1) : TaggedStruct T2 m2 t2 := by
  induction hu generalizing m2 t2 with
  | reference ht _ ih =>
    obtain ⟨m2', t2', hf, hs⟩ := h.deref hc ht
    exact hf.taggedStruct (ih hs)
  | tagged hcore hst =>
    obtain ⟨m2', t2', hf, hs, hn⟩ := h.head (by intros; nofun)
    refine hf.taggedStruct ?_
    cases hs with
    | right => exact absurd rfl (hn _ _ _)
    | prefixed c n k ht hs =>
      obtain ⟨wm', u', h1, h2⟩ := hs.core hc hcore
      exact .tagged h1 ((h2.isStruct (core_isCore hcore) (core_isCore h1)).1 ▸ hst)

theorem _root_.FastBer.Ast.Spec.Lost.taggedStruct {T : Tree} {m : Module} {t : AType} (h : Lost T m t) : TaggedStruct T m t := by
  induction h with
  | tagged _ hc hs => exact .tagged hc hs
  | reference ht _ ih => exact .reference ht ih

/-! ## Rules on tags -/

/-- Every type written in the second tree that is no reference corresponds to one of the first tree. -/
def Stands (T1 T2 : Tree) (R : RefRel) : Prop := ∀ m2 t2, Occurs T2 m2 t2 → (∀ q ref ps, t2 ≠ .defined q ref ps) →
  ∃ m1 t1, Occurs T1 m1 t1 ∧ (∀ q ref ps, t1 ≠ .defined q ref ps) ∧ Sim T1 T2 R m1 t1 m2 t2

theorem Sim.clash_iff {T1 T2 : Tree} {R : RefRel} (hc : Corr T1 T2 R) {m1 m2 : Module} {t1 u1 t2 u2 : AType} (h : Sim T1 T2 R m1 t1 m2 t2)
    (h' : Sim T1 T2 R m1 u1 m2 u2) : Clash T1 m1 t1 u1 ↔ Clash T2 m2 t2 u2 := by
  constructor
  · rintro ⟨x, h1, h2⟩; exact ⟨x, (h.outermost_iff hc x).1 h1, (h'.outermost_iff hc x).1 h2⟩
  · rintro ⟨x, h1, h2⟩; exact ⟨x, (h.outermost_iff hc x).2 h1, (h'.outermost_iff hc x).2 h2⟩

theorem legal_stands {T1 T2 : Tree} {R : RefRel} (hc : Corr T1 T2 R) (hs : Stands T1 T2 R) (hl : Legal T1) : Legal T2 where
  sequences := fun m2 cs e ho => by
    obtain ⟨m1, t1, ho1, hn, h⟩ := hs _ _ ho (by nofun)
    cases h with
    | left => exact absurd rfl (hn _ _ _)
    | sequence e ht hlen h3 h4 =>
      obtain ⟨g1, g2⟩ := Sim.slots ht hlen h3 h4
      intro i j a b hij ha hb hk hcl
      obtain ⟨a', ha'⟩ := get_other g1.symm ha
      obtain ⟨b', hb'⟩ := get_other g1.symm hb
      refine hl.sequences _ _ _ ho1 i j a' b' hij ha' hb' (fun k c' k1 k2 hc' => ?_) (((g2 i _ _ ha' ha).2.clash_iff hc (g2 j _ _ hb' hb).2).2 hcl)
      obtain ⟨c, hcc⟩ := get_other g1 hc'
      rw [(g2 k _ _ hc' hcc).1]
      exact hk k c k1 k2 hcc
  sets := fun m2 cs e ho => by
    obtain ⟨m1, t1, ho1, hn, h⟩ := hs _ _ ho (by nofun)
    cases h with
    | left => exact absurd rfl (hn _ _ _)
    | set e ht hlen h3 h4 =>
      obtain ⟨g1, g2⟩ := Sim.slots ht hlen h3 h4
      intro i j a b hij ha hb hcl
      obtain ⟨a', ha'⟩ := get_other g1.symm ha
      obtain ⟨b', hb'⟩ := get_other g1.symm hb
      exact hl.sets _ _ _ ho1 i j a' b' hij ha' hb' (((g2 i _ _ ha' ha).2.clash_iff hc (g2 j _ _ hb' hb).2).2 hcl)
  choices := fun m2 as s ho => by
    obtain ⟨m1, t1, ho1, hn, h⟩ := hs _ _ ho (by nofun)
    cases h with
    | left => exact absurd rfl (hn _ _ _)
    | choice s s' ht hlen h3 h4 =>
      obtain ⟨g1, g2⟩ := Sim.choices ht hlen h3 h4
      intro i j a b x y hij ha hb hx hy
      obtain ⟨a', ha'⟩ := get_other g1.symm ha
      obtain ⟨b', hb'⟩ := get_other g1.symm hb
      exact hl.choices _ _ _ ho1 i j a' b' x y hij ha' hb' (((g2 i _ _ ha' ha).2.outermost_iff hc x).2 hx) (((g2 j _ _ hb' hb).2.outermost_iff hc y).2 hy)
  numbers := fun m2 c n k t ho => by
    obtain ⟨m1, t1, ho1, hn, h⟩ := hs _ _ ho (by nofun)
    cases h with
    | left => exact absurd rfl (hn _ _ _)
    | prefixed => exact hl.numbers _ _ _ _ _ ho1
  sequenceSize := fun m2 cs e ho => by
    obtain ⟨m1, t1, ho1, hn, h⟩ := hs _ _ ho (by nofun)
    cases h with
    | left => exact absurd rfl (hn _ _ _)
    | sequence e ht hlen h3 h4 => exact hlen ▸ hl.sequenceSize _ _ _ ho1
  setSize := fun m2 cs e ho => by
    obtain ⟨m1, t1, ho1, hn, h⟩ := hs _ _ ho (by nofun)
    cases h with
    | left => exact absurd rfl (hn _ _ _)
    | set e ht hlen h3 h4 => exact hlen ▸ hl.setSize _ _ _ ho1
  choiceSize := fun m2 cs e ho => by
    obtain ⟨m1, t1, ho1, hn, h⟩ := hs _ _ ho (by nofun)
    cases h with
    | left => exact absurd rfl (hn _ _ _)
    | choice s s' ht hlen h3 h4 => exact hlen ▸ hl.choiceSize _ _ _ ho1
  strings := fun m2 n ho => by
    obtain ⟨m1, t1, ho1, hn, h⟩ := hs _ _ ho (by nofun)
    cases h with
    | left => exact absurd rfl (hn _ _ _)
    | leaf => exact hl.strings _ _ ho1

theorem noBareChoice_stands {T1 T2 : Tree} {R : RefRel} (hc : Corr T1 T2 R) (hs : Stands T1 T2 R) (hl : NoBareChoice T1) : NoBareChoice T2 := by
  intro m2 cs e s ho hmem hab htags
  obtain ⟨m1, t1, ho1, hn, h⟩ := hs _ _ ho (by nofun)
  cases h with
  | left => exact absurd rfl (hn _ _ _)
  | sequence e ht hlen h3 h4 =>
    obtain ⟨g1, g2⟩ := Sim.slots ht hlen h3 h4
    obtain ⟨i, hi⟩ := List.getElem?_of_mem hmem
    obtain ⟨s', hs'⟩ := get_other g1.symm hi
    obtain ⟨k1, k2⟩ := g2 i _ _ hs' hi
    exact hl _ _ _ s' ho1 (List.mem_of_getElem? hs') (k1.trans hab) ((k2.ownTags_iff hc _).2 htags)

end FastBer.Ast
