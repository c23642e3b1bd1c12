import Verif.Proofs.EncodeHold
/-!
# What an object of a generated type holds is a value of the ASN.1 type
-/
namespace FastBer.Ast
open Spec FastBer.Spec

theorem leaf_holdable {lib : Lib} {k : Builtin} {l : Leaf} (hl : LeafFor lib k l) {id : Ident} {o : Obj} {x : Val} {e : Bytes}
    (h : leafRep l id o x e) : ∃ c, x = .content c ∧ holdable k c := by
  have small : ∀ m, smallRep m id o x e → ∃ c, x = .content c ∧ c.length ≤ m := fun m h => by
    obtain ⟨c, _, h1, h2, _⟩ := h
    exact ⟨c, h1, h2⟩
  have cont : contRep id o x e → ∃ c, x = .content c ∧ c.length < 2 ^ 64 := fun h => by
    obtain ⟨v, w, _, _, hl, _, hle, hx, _⟩ := h
    exact ⟨_, hx, by rw [List.length_drop]; omega⟩
  rcases hl with hl | ⟨rfl, rfl⟩
  · cases k with
    | generalizedTime | utcTime | date | dateTime | duration | time | timeOfDay | octetString | bitString | charString _ | objectIdentifier =>
      cases hl; exact cont h
    | integer | real => cases hl; exact small _ h
    | boolean => cases hl; obtain ⟨b, rfl, _⟩ := h; exact ⟨[b], rfl, rfl⟩
    | null => cases hl; obtain ⟨rfl, _⟩ := h; exact ⟨[], rfl, rfl⟩
    | enumerated | any | embeddedPDV | external | instanceOf | iri | objectDescriptor | relativeIRI | relativeOID | t61String => cases hl
  · exact small _ h

mutual
theorem value_of_rep {H : Holes} {lib : Lib} {tree : Tree}
    (hU : ∀ T mod t, H T mod t → ∀ o x e, T.Rep o x e → Spec.Value holdable tree mod t x) : ∀ (T : Ty) (mod : Module) (t : AType) (o : Obj) (x : Val) (e : Bytes),
    T.Body H lib tree mod t → T.Rep o x e → Spec.Value holdable tree mod t x
  | .leaf l id, mod, t, o, x, e, ⟨wm, k, hc, hl⟩, hr => by
    obtain ⟨c, rfl, h⟩ := leaf_holdable hl hr
    exact .intro hc (.leaf h)
  | .seqOf id T, mod, t, o, x, e, ⟨wm, n, u, s, hc, hb⟩, hr => by
    have hT : ∀ o x e, T.Rep o x e → Spec.Value holdable tree wm u x := by
      rcases hb with ⟨hb, _⟩ | hb
      · exact fun o x e => value_of_rep hU T wm u o x e hb
      · exact hU T wm u hb
    obtain ⟨os, xs, es, rfl, rfl, rfl, hr⟩ := hr
    have key : ∀ (os : List Obj) (xs : List Val) (es : List Bytes), all3 T.Rep os xs es → ∀ x ∈ xs, Spec.Value holdable tree wm u x := by
      intro os
      induction os with
      | nil =>
        intro xs es h x hx
        match xs, es, h with
        | [], [], _ => cases hx
      | cons o os ih =>
        intro xs es h x hx
        match xs, es, h with
        | y :: xs, e :: es, h =>
          rcases List.mem_cons.1 hx with rfl | hx
          · exact hT o x e h.1
          · exact ih xs es h.2 x hx
    rcases hc with hc | hc
    · exact .intro hc (.seqOf (key os xs es hr))
    · exact .intro hc (.setOf (key os xs es hr))
  | .seq id fs, mod, t, o, x, e, ⟨wm, cs, ext, hc, hb⟩, hr => by
    obtain ⟨os, xs, es, rfl, rfl, rfl, hr⟩ := hr
    exact .intro hc (.sequence (slots_of_rep hU fs _ wm _ os xs es hb hr))
  | .set id ext fs, mod, t, o, x, e, ⟨wm, cs, hc, hb⟩, hr => by
    obtain ⟨os, xs, es, rfl, rfl, rfl, hr⟩ := hr
    exact .intro hc (.set (slots_of_rep hU fs _ wm _ os xs es hb hr))
  | .choice cid as, mod, t, o, x, e, ⟨wm, as', s, hc, hb, _⟩, hr => by
    obtain ⟨i, o', x', e', rfl, rfl, hr, rfl⟩ := hr
    obtain ⟨u, hu, hv⟩ := alt_of_rep hU as wm _ i o' x' e' hb hr
    exact .intro hc (.choice hu hv)
theorem slots_of_rep {H : Holes} {lib : Lib} {tree : Tree}
    (hU : ∀ T mod t, H T mod t → ∀ o x e, T.Rep o x e → Spec.Value holdable tree mod t x) : ∀ (fs : Fields) (all : Bool) (mod : Module) (ss : List Slot) (os : List Obj) (xs : List Val) (es : List Bytes),
    fs.Body H lib tree all mod ss → fs.Rep os xs es → ValueSlots holdable tree mod ss xs
  | .nil, all, mod, ss, os, xs, es, hb, hr => by
    obtain ⟨rfl, rfl, rfl⟩ := hr
    cases hb
    exact .nil _
  | .cons k ls T rest, all, mod, ss, os, xs, es, hb, hr => by
    obtain ⟨o, os', x, xs', e, es', rfl, rfl, rfl, hr, hr'⟩ := hr
    obtain ⟨s, ss', rfl, hk, _, h12, h3⟩ := hb
    have hT : ∀ o x e, T.Rep o x e → Spec.Value holdable tree mod s.type x := by
      rcases h12 with ⟨hb, _⟩ | hb
      · exact fun o x e => value_of_rep hU T mod s.type o x e hb
      · exact hU T mod s.type hb
    obtain ⟨ab, st⟩ := s
    have ih := slots_of_rep hU rest all mod ss' os' xs' es' h3 hr'
    have hopt : ab = true → ((o = .none ∧ x = .absent ∧ e = []) ∨ ∃ o' x', o = .some o' ∧ x = .present x' ∧ T.Rep o' x' e) →
        ValueSlots holdable tree mod (⟨ab, st⟩ :: ss') (x :: xs') := by
      rintro rfl (⟨rfl, rfl, rfl⟩ | ⟨o', x', rfl, rfl, h⟩)
      · exact .absent ih
      · exact .present (hT o' x' e h) ih
    cases k with
    | mandatory => cases hk; exact .mandatory (hT o x e hr) ih
    | optional => exact hopt hk hr
    | default d => exact hopt hk.1 hr
theorem alt_of_rep {H : Holes} {lib : Lib} {tree : Tree}
    (hU : ∀ T mod t, H T mod t → ∀ o x e, T.Rep o x e → Spec.Value holdable tree mod t x) : ∀ (as : Alts) (mod : Module) (ts : List AType) (i : Nat) (o : Obj) (x : Val) (e : Bytes),
    as.Body H lib tree mod ts → as.Rep i o x e → ∃ u, ts[i]? = some u ∧ Spec.Value holdable tree mod u x
  | .nil, _, _, _, _, _, _, _, hr => False.elim hr
  | .cons ls T rest, mod, ts, i, o, x, e, hb, hr => by
    obtain ⟨t, ts', rfl, _, h12, h3⟩ := hb
    have hT : ∀ o x e, T.Rep o x e → Spec.Value holdable tree mod t x := by
      rcases h12 with ⟨hb, _⟩ | hb
      · exact fun o x e => value_of_rep hU T mod t o x e hb
      · exact hU T mod t hb
    cases i with
    | zero => exact ⟨t, rfl, hT o x e hr⟩
    | succ i => exact alt_of_rep hU rest mod ts' i o x e h3 hr
end

end FastBer.Ast
