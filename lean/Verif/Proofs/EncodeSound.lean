import Verif.Spec.Fresh
import Verif.Proofs.Legal
import Verif.Proofs.SchemaLeaf
/-!
# What a generated type writes is an X.690 encoding in the sense of the ASN.1 type
-/
namespace FastBer.Ast
open Spec FastBer.Spec

theorem elementId_element {contents : Builtin → Bytes → Prop} (tag : Spec.Tag) (k : Construction) (c : Bytes) :
    Element (shortest contents) tag k c (elementId (idOf tag) k c) :=
  ⟨lengthOctets c.length, rfl, by simp [elementId, element, header, idOf]⟩

theorem wrapped_tagged {contents : Builtin → Bytes → Prop} {id : Ident} {ts : List Spec.Tag} (h : id.list = ts.map idOf) (k : Construction) (c : Bytes) :
    Wrapped (shortest contents) ts k c (tagged id k c) := by
  cases id with
  | single i =>
    match ts, h with
    | [tag], h =>
      simp only [Ident.list, List.map_cons, List.map_nil, List.cons.injEq, and_true] at h
      subst h
      exact elementId_element tag k c
    | [], h => cases h
    | _ :: _ :: _, h => cases h
  | double o i =>
    match ts, h with
    | [t1, t2], h =>
      simp only [Ident.list, List.map_cons, List.map_nil, List.cons.injEq, and_true] at h
      obtain ⟨rfl, rfl⟩ := h
      exact ⟨_, elementId_element t2 k c, elementId_element t1 _ _⟩
    | [], h => cases h
    | [_], h => cases h
    | _ :: _ :: _ :: _, h => cases h

theorem core_value {contents : Builtin → Bytes → Prop} {tree : Tree} {mod wm : Module} {t u : AType} {x : Val} (hc : Core tree mod t wm u)
    (hv : Spec.Value contents tree mod t x) : ValueOf contents tree wm u x := by
  cases hv with
  | intro hc' hv => obtain ⟨rfl, rfl⟩ := hc.unique hc'; exact hv

theorem contRep_fresh {id : Ident} {o : Obj} {x : Val} {e : Bytes} (hr : contRep id o x e) (hf : ∃ c, o = .cont ⟨tagged id .primitive c, c.length⟩) :
    ∃ c, x = .content c ∧ e = tagged id .primitive c := by
  obtain ⟨v, w, _, _, _, _, hle, hx, ho⟩ := hr
  obtain ⟨c, hc⟩ := hf
  rw [ho] at hc
  simp only [Obj.cont.injEq, Cont.mk.injEq] at hc
  obtain ⟨rfl, hw⟩ := hc
  refine ⟨c, ?_, rfl⟩
  rw [hx, hw, tagged_eq, List.length_append, Nat.add_sub_cancel, List.drop_left]

theorem leafRep_fresh {l : Leaf} {id : Ident} {o : Obj} {x : Val} {e : Bytes} (hr : leafRep l id o x e) (hf : (Ty.leaf l id).Fresh o) :
    ∃ c, x = .content c ∧ e = tagged id .primitive c := by
  cases l with
  | int | enum | real _ => obtain ⟨c, _, h1, _, _, h2, _⟩ := hr; exact ⟨c, h1, h2⟩
  | bool => obtain ⟨b, h1, h2, _⟩ := hr; exact ⟨[b], h1, h2⟩
  | null => obtain ⟨h1, h2, _⟩ := hr; exact ⟨[], h1, h2⟩
  | str | oid | time _ => exact contRep_fresh hr hf

mutual
theorem encodes_of_rep {H : Holes} {lib : Lib} {contents : Builtin → Bytes → Prop} {tree : Tree}
    (hU : ∀ T mod t, H T mod t → ∀ o x e, Spec.Value contents tree mod t x → T.Rep o x e → T.Fresh o → Encodes (shortest contents) tree mod t x e) : ∀ (T : Ty) (mod : Module) (t : AType) (o : Obj) (x : Val) (e : Bytes),
    T.Is H lib tree mod t → Spec.Value contents tree mod t x → T.Rep o x e → T.Fresh o → Encodes (shortest contents) tree mod t x e
  | .leaf l id, mod, t, o, x, e, ⟨⟨wm, k, hc, _⟩, ts, ho, he⟩, hv, hr, hf => by
    obtain ⟨c, rfl, rfl⟩ := leafRep_fresh hr hf
    cases core_value hc hv with
    | leaf hk => exact .intro ho hc (.leaf hk) (wrapped_tagged he _ _)
  | .seqOf id T, mod, t, o, x, e, ⟨⟨wm, n, u, s, hc, hb⟩, ts, ho, he⟩, hv, hr, hf => by
    obtain ⟨os, xs, es, rfl, rfl, rfl, hr⟩ := hr
    have hT : ∀ o x e, Spec.Value contents tree wm u x → T.Rep o x e → T.Fresh o → Encodes (shortest contents) tree wm u x e := by
      rcases hb with hb | hb
      · exact fun o x e => encodes_of_rep hU T wm u o x e hb
      · exact hU T wm u hb
    have key : ∀ (os : List Obj) (xs : List Val) (es : List Bytes), all3 T.Rep os xs es → (∀ o ∈ os, T.Fresh o) → (∀ x ∈ xs, Spec.Value contents tree wm u x) →
        EncodesEach (shortest contents) tree wm u xs es := by
      intro os
      induction os with
      | nil =>
        intro xs es h _ _
        match xs, es, h with
        | [], [], _ => exact .nil _ _
      | cons o os ih =>
        intro xs es h hf hv
        match xs, es, h with
        | x :: xs, e :: es, h =>
          exact .cons (hT o x e (hv _ List.mem_cons_self) h.1 (hf _ List.mem_cons_self))
            (ih xs es h.2 (fun o h => hf o (List.mem_cons_of_mem _ h)) fun x h => hv x (List.mem_cons_of_mem _ h))
    rcases hc with hc | hc
    · cases core_value hc hv with
      | seqOf hx => exact .intro ho hc (.seqOf (key os xs es hr hf hx)) (wrapped_tagged he _ _)
    · cases core_value hc hv with
      | setOf hx => exact .intro ho hc (.setOf (key os xs es hr hf hx)) (wrapped_tagged he _ _)
  | .seq id fs, mod, t, o, x, e, ⟨⟨wm, cs, ext, hc, hb⟩, ts, ho, he⟩, hv, hr, hf => by
    obtain ⟨os, xs, es, rfl, rfl, rfl, hr⟩ := hr
    cases core_value hc hv with
    | sequence hx => exact .intro ho hc (.sequence (encodesSlots_of_rep hU fs _ wm _ os xs es hb hx hr hf)) (wrapped_tagged he _ _)
  | .set id ext fs, mod, t, o, x, e, ⟨⟨wm, cs, hc, hb⟩, ts, ho, he⟩, hv, hr, hf => by
    obtain ⟨os, xs, es, rfl, rfl, rfl, hr⟩ := hr
    cases core_value hc hv with
    | set hx => exact .intro ho hc (.set (encodesSlots_of_rep hU fs _ wm _ os xs es hb hx hr hf) (List.Perm.refl _)) (wrapped_tagged he _ _)
  | .choice cid as, mod, t, o, x, e, ⟨⟨wm, as', s, hc, hb, _⟩, ts, ho, he⟩, hv, hr, hf => by
    obtain ⟨i, o', x', e', rfl, rfl, hr, rfl⟩ := hr
    cases core_value hc hv with
    | @choice _ _ _ _ u _ hu hx =>
      have hen : Contents (shortest contents) tree wm (.choice as' s) (.alt i x') .constructed e' :=
        .choice hu (encodesAlt_of_rep hU as wm _ i u o' x' e' hb hu hx hr hf)
      refine .intro ho hc hen ?_
      cases cid with
      | tagged id => exact wrapped_tagged he _ _
      | untagged ids =>
        cases ts with
        | nil => rfl
        | cons a b => cases he
theorem encodesSlots_of_rep {H : Holes} {lib : Lib} {contents : Builtin → Bytes → Prop} {tree : Tree}
    (hU : ∀ T mod t, H T mod t → ∀ o x e, Spec.Value contents tree mod t x → T.Rep o x e → T.Fresh o → Encodes (shortest contents) tree mod t x e) : ∀ (fs : Fields) (all : Bool) (mod : Module) (ss : List Slot)
    (os : List Obj) (xs : List Val) (es : List Bytes), fs.Body H lib tree all mod ss → ValueSlots contents tree mod ss xs → fs.Rep os xs es → fs.Fresh os →
    EncodesSlots (shortest contents) tree mod ss xs es
  | .nil, all, mod, ss, os, xs, es, hb, hv, hr, hf => by
    obtain ⟨rfl, rfl, rfl⟩ := hr
    cases hb
    exact .nil _
  | .cons k ls T rest, all, mod, ss, os, xs, es, hb, hv, hr, hf => by
    obtain ⟨o, os', x, xs', e, es', rfl, rfl, rfl, hr, hr'⟩ := hr
    obtain ⟨s, ss', rfl, hk, _, h12, h3⟩ := hb
    have hT : ∀ o x e, Spec.Value contents tree mod s.type x → T.Rep o x e → T.Fresh o → Encodes (shortest contents) tree mod s.type x e := by
      rcases h12 with hb | hb
      · exact fun o x e => encodes_of_rep hU T mod s.type o x e hb
      · exact hU T mod s.type hb
    obtain ⟨hf, hf'⟩ := hf
    have hopt : s.mayBeAbsent = true → ((o = .none ∧ x = .absent ∧ e = []) ∨ ∃ o' x', o = .some o' ∧ x = .present x' ∧ T.Rep o' x' e) →
        (∀ o', o = .some o' → T.Fresh o') → EncodesSlots (shortest contents) tree mod (s :: ss') (x :: xs') (e :: es') := by
      intro hs hrr hf
      obtain ⟨ab, st⟩ := s
      cases hs
      rcases hrr with ⟨rfl, rfl, rfl⟩ | ⟨o', x', rfl, rfl, hrr⟩
      · cases hv with
        | absent hv => exact .absent (encodesSlots_of_rep hU rest all mod ss' os' xs' es' h3 hv hr' hf')
      · cases hv with
        | present hx hv =>
          exact .present (hT o' x' e hx hrr (hf _ rfl)) (encodesSlots_of_rep hU rest all mod ss' os' xs' es' h3 hv hr' hf')
    cases k with
    | mandatory =>
      obtain ⟨ab, st⟩ := s
      cases hk
      cases hv with
      | mandatory hx hv =>
        exact .mandatory (hT o x e hx hr hf) (encodesSlots_of_rep hU rest all mod ss' os' xs' es' h3 hv hr' hf')
    | optional => exact hopt hk hr (by rintro o' rfl; exact hf)
    | default d => exact hopt hk.1 hr (by rintro o' rfl; exact hf)
theorem encodesAlt_of_rep {H : Holes} {lib : Lib} {contents : Builtin → Bytes → Prop} {tree : Tree}
    (hU : ∀ T mod t, H T mod t → ∀ o x e, Spec.Value contents tree mod t x → T.Rep o x e → T.Fresh o → Encodes (shortest contents) tree mod t x e) : ∀ (as : Alts) (mod : Module) (ts : List AType) (i : Nat)
    (u : AType) (o : Obj) (x : Val) (e : Bytes), as.Body H lib tree mod ts → ts[i]? = some u → Spec.Value contents tree mod u x → as.Rep i o x e → as.Fresh i o →
    Encodes (shortest contents) tree mod u x e
  | .nil, _, _, _, _, _, _, _, _, _, _, hr, _ => False.elim hr
  | .cons ls T rest, mod, ts, i, u, o, x, e, hb, hu, hv, hr, hf => by
    obtain ⟨t, ts', rfl, _, h12, h3⟩ := hb
    cases i with
    | zero =>
      cases hu
      rcases h12 with h1 | h1
      · exact encodes_of_rep hU T mod _ o x e h1 hv hr hf
      · exact hU T mod _ h1 o x e hv hr hf
    | succ i => exact encodesAlt_of_rep hU rest mod ts' i u o x e h3 hu hv hr hf
end

end FastBer.Ast
