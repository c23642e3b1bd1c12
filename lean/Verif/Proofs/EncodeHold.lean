import Verif.Proofs.EncodeSound
/-!
# Every value of an ASN.1 type can be held by an object of the generated type
-/
namespace FastBer.Ast
open Spec FastBer.Spec

theorem cont_holds {id : Ident} (hid : identOk id) {c : Bytes} (hc : c.length < 2 ^ 63) :
    contRep id (.cont ⟨tagged id .primitive c, c.length⟩) (.content c) (tagged id .primitive c) := by
  have hl : (tagged id .primitive c).length < 2 ^ 64 := by
    have := Ident.encodedLength_lt id c.length
    rw [length_tagged hid _ _ (by omega)]; omega
  have h1 := assign_tagged id hid .primitive c [] 0 hl
  rw [List.append_nil] at h1
  obtain ⟨h2, h3, _⟩ := taggedView_hdr_len id .primitive c []
  obtain ⟨w, hw, _, hwl⟩ := matches_tagged id hid .primitive c [] hl
  refine ⟨_, w, h1, h2, hl, hw, by rw [hwl]; exact content_le_tagged .., ?_, by rw [hwl]⟩
  rw [hwl, tagged_eq, List.length_append, Nat.add_sub_cancel, List.drop_left]

theorem small_holds {id : Ident} {max : Nat} {c : Bytes} (hc : c.length ≤ max) : ∃ o, smallRep max id o (.content c) (tagged id .primitive c) :=
  ⟨_, c, List.replicate (max - c.length) 0, rfl, hc, by simp; omega, rfl, rfl⟩

theorem leaf_holds {lib : Lib} {k : Builtin} {l : Leaf} (hl : LeafFor lib k l) {id : Ident} (hid : identOk id) {c : Bytes} (hc : storable k c) :
    ∃ o, leafRep l id o (.content c) (tagged id .primitive c) ∧ (Ty.leaf l id).Fresh o := by
  have hstr : ∀ c : Bytes, c.length < 2 ^ 63 → contRep id (.cont ⟨tagged id .primitive c, c.length⟩) (.content c) (tagged id .primitive c) ∧
      ∃ c', Obj.cont ⟨tagged id .primitive c, c.length⟩ = .cont ⟨tagged id .primitive c', c'.length⟩ := fun c hc => ⟨cont_holds hid hc, c, rfl⟩
  have htime : 10 ≤ c.length ∧ c.length ≤ 23 → contRep id (.cont ⟨tagged id .primitive c, c.length⟩) (.content c) (tagged id .primitive c) ∧
      ∃ c', Obj.cont ⟨tagged id .primitive c, c.length⟩ = .cont ⟨tagged id .primitive c', c'.length⟩ := fun hc => hstr c (by omega)
  rcases hl with hl | ⟨rfl, rfl⟩
  · cases k with
    | boolean =>
      cases hl
      match c, hc with
      | [b], _ => exact ⟨_, ⟨b, rfl, rfl, rfl⟩, trivial⟩
    | integer => cases hl; obtain ⟨o, ho⟩ := small_holds (id := id) hc; exact ⟨o, ho, trivial⟩
    | null =>
      cases hl
      match c, hc with
      | [], _ => exact ⟨_, ⟨rfl, rfl, rfl⟩, trivial⟩
    | real => cases hl; obtain ⟨o, ho⟩ := small_holds (id := id) hc; exact ⟨o, ho, trivial⟩
    | octetString | bitString | charString _ | objectIdentifier => cases hl; exact ⟨_, hstr c hc⟩
    | generalizedTime | utcTime | date | dateTime | duration | time | timeOfDay => cases hl; exact ⟨_, htime hc⟩
    | enumerated | any | embeddedPDV | external | instanceOf | iri | objectDescriptor | relativeIRI | relativeOID | t61String => cases hl
  · obtain ⟨o, ho⟩ := small_holds (id := id) hc; exact ⟨o, ho, trivial⟩

theorem sizeOf_list {xs : List Val} {s : Nat} (h : sizeOf (Val.list xs) ≤ s) : ∀ x ∈ xs, sizeOf x < s := by
  intro x hx
  have := List.sizeOf_lt_of_mem hx
  rw [Val.list.sizeOf_spec] at h
  omega

theorem sizeOf_alt {i : Nat} {x : Val} {s : Nat} (h : sizeOf (Val.alt i x) ≤ s) : sizeOf x < s := by
  rw [Val.alt.sizeOf_spec] at h
  omega

mutual
theorem value_holds {H : Holes} {lib : Lib} {tree : Tree} (hL : Legal tree) {s : Nat}
    (hU : ∀ T mod t, H T mod t → ∀ x, sizeOf x < s → Spec.Value storable tree mod t x → ∃ o e, T.Rep o x e ∧ T.Fresh o) : ∀ (T : Ty) (mod : Module) (t : AType) (x : Val),
    T.Body H lib tree mod t → (∀ i ∈ T.own, FastBer.Spec.idOk i) → CoreIn tree mod t → sizeOf x ≤ s → Spec.Value storable tree mod t x → ∃ o e, T.Rep o x e ∧ T.Fresh o
  | .leaf l id, mod, t, x, ⟨wm, k, hc, hl⟩, ho, _, _, hv => by
    cases core_value hc hv with
    | leaf hk => obtain ⟨o, h⟩ := leaf_holds hl (ident_ok ho) hk; exact ⟨o, _, h⟩
  | .seqOf id T, mod, t, x, ⟨wm, n, u, _, hc, hb⟩, ho, hco, hs, hv => by
    have hk : Known tree wm u := by
      rcases hc with hc | hc
      · exact known_of_occurs hL (.seqOf (hco _ _ hc))
      · exact known_of_occurs hL (.setOf (hco _ _ hc))
    have one : ∀ x, sizeOf x < s → Spec.Value storable tree wm u x → ∃ o e, T.Rep o x e ∧ T.Fresh o := by
      intro x hx hv
      rcases hb with ⟨hb, hh⟩ | hb
      · exact value_holds hL hU T wm u x hb (own_ok hk.bound hh) hk.core (Nat.le_of_lt hx) hv
      · exact hU T wm u hb x hx hv
    have key : ∀ (xs : List Val), (∀ x ∈ xs, sizeOf x < s) → (∀ x ∈ xs, Spec.Value storable tree wm u x) → ∃ os es, all3 T.Rep os xs es ∧ ∀ o ∈ os, T.Fresh o := by
      intro xs
      induction xs with
      | nil => intro _ _; exact ⟨[], [], trivial, fun o h => by cases h⟩
      | cons x xs ih =>
        intro hz hv
        obtain ⟨o, e, h1, h2⟩ := one x (hz _ List.mem_cons_self) (hv _ List.mem_cons_self)
        obtain ⟨os, es, h3, h4⟩ := ih (fun x h => hz x (List.mem_cons_of_mem _ h)) fun x h => hv x (List.mem_cons_of_mem _ h)
        refine ⟨o :: os, e :: es, ⟨h1, h3⟩, fun o' h => ?_⟩
        rcases List.mem_cons.1 h with rfl | h
        · exact h2
        · exact h4 _ h
    rcases hc with hc | hc
    · cases core_value hc hv with
      | seqOf hx => obtain ⟨os, es, h1, h2⟩ := key _ (sizeOf_list hs) hx; exact ⟨_, _, ⟨os, _, es, rfl, rfl, rfl, h1⟩, h2⟩
    · cases core_value hc hv with
      | setOf hx => obtain ⟨os, es, h1, h2⟩ := key _ (sizeOf_list hs) hx; exact ⟨_, _, ⟨os, _, es, rfl, rfl, rfl, h1⟩, h2⟩
  | .seq id fs, mod, t, x, ⟨wm, cs, ext, hc, hb⟩, ho, hco, hs, hv => by
    cases core_value hc hv with
    | sequence hx =>
      obtain ⟨os, es, h1, h2⟩ := slots_hold hL hU fs _ wm _ _ hb (fun s hs => known_sequence hL (hco _ _ hc) hs) (sizeOf_list hs) hx
      exact ⟨_, _, ⟨os, _, es, rfl, rfl, rfl, h1⟩, h2⟩
  | .set id ext fs, mod, t, x, ⟨wm, cs, hc, hb⟩, ho, hco, hs, hv => by
    cases core_value hc hv with
    | set hx =>
      obtain ⟨os, es, h1, h2⟩ := slots_hold hL hU fs _ wm _ _ hb (fun s hs => known_set hL (hco _ _ hc) hs) (sizeOf_list hs) hx
      exact ⟨_, _, ⟨os, _, es, rfl, rfl, rfl, h1⟩, h2⟩
  | .choice cid as, mod, t, x, ⟨wm, as', _, hc, hb, _⟩, ho, hco, hs, hv => by
    cases core_value hc hv with
    | @choice _ _ _ i u y hu hx =>
      obtain ⟨o, e, h1, h2⟩ := alt_holds hL hU as wm _ i u y hb (fun u hu => known_choice hL (hco _ _ hc) hu) (sizeOf_alt hs) hu hx
      exact ⟨_, _, ⟨i, o, y, e, rfl, rfl, h1, rfl⟩, h2⟩
theorem slots_hold {H : Holes} {lib : Lib} {tree : Tree} (hL : Legal tree) {s : Nat}
    (hU : ∀ T mod t, H T mod t → ∀ x, sizeOf x < s → Spec.Value storable tree mod t x → ∃ o e, T.Rep o x e ∧ T.Fresh o) : ∀ (fs : Fields) (all : Bool) (mod : Module) (ss : List Slot) (xs : List Val),
    fs.Body H lib tree all mod ss → (∀ s ∈ ss, Known tree mod s.type) → (∀ x ∈ xs, sizeOf x < s) → ValueSlots storable tree mod ss xs → ∃ os es, fs.Rep os xs es ∧ fs.Fresh os
  | .nil, all, mod, ss, xs, hb, _, _, hv => by
    cases hb
    cases hv
    exact ⟨[], [], ⟨rfl, rfl, rfl⟩, trivial⟩
  | .cons k ls T rest, all, mod, ss, xs, hb, hw, hz, hv => by
    obtain ⟨sl, ss', rfl, hk, _, h12, h3⟩ := hb
    obtain ⟨ab, st⟩ := sl
    have hkn := hw _ List.mem_cons_self
    have hw' : ∀ s ∈ ss', Known tree mod s.type := fun s h => hw s (List.mem_cons_of_mem _ h)
    have one : ∀ x, sizeOf x < s → Spec.Value storable tree mod st x → ∃ o e, T.Rep o x e ∧ T.Fresh o := by
      intro x hx hv
      rcases h12 with ⟨hb, hh⟩ | hb
      · exact value_holds hL hU T mod st x hb (own_ok hkn.bound hh) hkn.core (Nat.le_of_lt hx) hv
      · exact hU T mod st hb x hx hv
    cases hv with
    | mandatory hx hv =>
      cases k with
      | mandatory =>
        obtain ⟨o, e, a1, a2⟩ := one _ (hz _ List.mem_cons_self) hx
        obtain ⟨os, es, a3, a4⟩ := slots_hold hL hU rest all mod ss' _ h3 hw' (fun x h => hz x (List.mem_cons_of_mem _ h)) hv
        exact ⟨o :: os, e :: es, ⟨o, os, _, _, e, es, rfl, rfl, rfl, a1, a3⟩, a2, a4⟩
      | optional => cases hk
      | default d => cases hk.1
    | present hx hv =>
      obtain ⟨o, e, a1, a2⟩ := one _ (by have := hz _ List.mem_cons_self; rw [Val.present.sizeOf_spec] at this; omega) hx
      obtain ⟨os, es, a3, a4⟩ := slots_hold hL hU rest all mod ss' _ h3 hw' (fun x h => hz x (List.mem_cons_of_mem _ h)) hv
      cases k with
      | mandatory => cases hk
      | optional => exact ⟨.some o :: os, e :: es, ⟨.some o, os, _, _, e, es, rfl, rfl, rfl, .inr ⟨o, _, rfl, rfl, a1⟩, a3⟩, a2, a4⟩
      | default d => exact ⟨.some o :: os, e :: es, ⟨.some o, os, _, _, e, es, rfl, rfl, rfl, .inr ⟨o, _, rfl, rfl, a1⟩, a3⟩, a2, a4⟩
    | absent hv =>
      obtain ⟨os, es, a3, a4⟩ := slots_hold hL hU rest all mod ss' _ h3 hw' (fun x h => hz x (List.mem_cons_of_mem _ h)) hv
      cases k with
      | mandatory => cases hk
      | optional => exact ⟨.none :: os, [] :: es, ⟨.none, os, _, _, [], es, rfl, rfl, rfl, .inl ⟨rfl, rfl, rfl⟩, a3⟩, trivial, a4⟩
      | default d => exact ⟨.none :: os, [] :: es, ⟨.none, os, _, _, [], es, rfl, rfl, rfl, .inl ⟨rfl, rfl, rfl⟩, a3⟩, trivial, a4⟩
theorem alt_holds {H : Holes} {lib : Lib} {tree : Tree} (hL : Legal tree) {s : Nat}
    (hU : ∀ T mod t, H T mod t → ∀ x, sizeOf x < s → Spec.Value storable tree mod t x → ∃ o e, T.Rep o x e ∧ T.Fresh o) : ∀ (as : Alts) (mod : Module) (ts : List AType) (i : Nat) (u : AType) (x : Val),
    as.Body H lib tree mod ts → (∀ t ∈ ts, Known tree mod t) → sizeOf x < s → ts[i]? = some u → Spec.Value storable tree mod u x → ∃ o e, as.Rep i o x e ∧ as.Fresh i o
  | .nil, _, ts, i, _, _, hb, _, _, hu, _ => by cases hb; cases hu
  | .cons ls T rest, mod, ts, i, u, x, hb, hw, hs, hu, hv => by
    obtain ⟨t, ts', rfl, _, h12, h3⟩ := hb
    cases i with
    | zero =>
      cases hu
      have hkn := hw _ List.mem_cons_self
      rcases h12 with ⟨hb, hh⟩ | hb
      · exact value_holds hL hU T mod _ x hb (own_ok hkn.bound hh) hkn.core (Nat.le_of_lt hs) hv
      · exact hU T mod _ hb x hs hv
    | succ i => exact alt_holds hL hU rest mod ts' i u x h3 (fun t h => hw t (List.mem_cons_of_mem _ h)) hs hu hv
end

/-! ## Values of the type are valid -/

theorem leaf_valid {lib : Lib} {k : Builtin} {l : Leaf} (hl : LeafFor lib k l) (id : Ident) {c : Bytes} (hc : storable k c) :
    (Ty.leaf l id).Valid (.content c) := by
  rcases hl with hl | ⟨rfl, rfl⟩
  · cases k with
    | generalizedTime | utcTime | date | dateTime | duration | time | timeOfDay => cases hl; exact hc
    | boolean | integer | null | real | octetString | bitString | charString _ | objectIdentifier => cases hl; trivial
    | enumerated | any | embeddedPDV | external | instanceOf | iri | objectDescriptor | relativeIRI | relativeOID | t61String => cases hl
  · trivial

mutual
theorem value_valid {H : Holes} {lib : Lib} {tree : Tree} (hU : ∀ T mod t, H T mod t → ∀ x, Spec.Value storable tree mod t x → T.Valid x) : ∀ (T : Ty) (mod : Module) (t : AType) (x : Val),
    T.Body H lib tree mod t → Spec.Value storable tree mod t x → T.Valid x
  | .leaf l id, mod, t, x, ⟨wm, k, hc, hl⟩, hv => by
    cases core_value hc hv with
    | leaf hk => exact leaf_valid hl id hk
  | .seqOf id T, mod, t, x, ⟨wm, n, u, s, hc, hb⟩, hv => by
    have one : ∀ x, Spec.Value storable tree wm u x → T.Valid x := by
      intro x hv
      rcases hb with ⟨hb, _⟩ | hb
      · exact value_valid hU T wm u x hb hv
      · exact hU T wm u hb x hv
    rcases hc with hc | hc
    · cases core_value hc hv with
      | seqOf hx => exact fun y hy => one y (hx y hy)
    · cases core_value hc hv with
      | setOf hx => exact fun y hy => one y (hx y hy)
  | .seq id fs, mod, t, x, ⟨wm, cs, ext, hc, hb⟩, hv => by
    cases core_value hc hv with
    | sequence hx => exact slots_valid hU fs _ wm _ _ hb hx
  | .set id ext fs, mod, t, x, ⟨wm, cs, hc, hb⟩, hv => by
    cases core_value hc hv with
    | set hx => exact slots_valid hU fs _ wm _ _ hb hx
  | .choice cid as, mod, t, x, ⟨wm, as', s, hc, hb, _⟩, hv => by
    cases core_value hc hv with
    | @choice _ _ _ i u y hu hx => exact alt_valid hU as wm _ i u y hb hu hx
theorem slots_valid {H : Holes} {lib : Lib} {tree : Tree} (hU : ∀ T mod t, H T mod t → ∀ x, Spec.Value storable tree mod t x → T.Valid x) : ∀ (fs : Fields) (all : Bool) (mod : Module) (ss : List Slot) (xs : List Val),
    fs.Body H lib tree all mod ss → ValueSlots storable tree mod ss xs → fs.Valid xs
  | .nil, _, _, _, _, _, _ => trivial
  | .cons k ls T rest, all, mod, ss, xs, hb, hv => by
    obtain ⟨s, ss', rfl, hk, _, h12, h3⟩ := hb
    obtain ⟨ab, st⟩ := s
    have one : ∀ x, Spec.Value storable tree mod st x → T.Valid x := by
      intro x hv
      rcases h12 with ⟨hb, _⟩ | hb
      · exact value_valid hU T mod st x hb hv
      · exact hU T mod st hb x hv
    cases hv with
    | mandatory hx hv =>
      cases k with
      | mandatory => exact ⟨one _ hx, slots_valid hU rest all mod ss' _ h3 hv⟩
      | optional => cases hk
      | default d => cases hk.1
    | present hx hv =>
      cases k with
      | mandatory => cases hk
      | optional => exact ⟨one _ hx, slots_valid hU rest all mod ss' _ h3 hv⟩
      | default d => exact ⟨one _ hx, slots_valid hU rest all mod ss' _ h3 hv⟩
    | absent hv =>
      cases k with
      | mandatory => cases hk
      | optional => exact ⟨trivial, slots_valid hU rest all mod ss' _ h3 hv⟩
      | default d => exact ⟨trivial, slots_valid hU rest all mod ss' _ h3 hv⟩
theorem alt_valid {H : Holes} {lib : Lib} {tree : Tree} (hU : ∀ T mod t, H T mod t → ∀ x, Spec.Value storable tree mod t x → T.Valid x) : ∀ (as : Alts) (mod : Module) (ts : List AType) (i : Nat) (u : AType) (x : Val),
    as.Body H lib tree mod ts → ts[i]? = some u → Spec.Value storable tree mod u x → as.Valid i x
  | .nil, _, ts, i, _, _, hb, hu, _ => by cases hb; cases hu
  | .cons ls T rest, mod, ts, i, u, x, hb, hu, hv => by
    obtain ⟨t, ts', rfl, _, h12, h3⟩ := hb
    cases i with
    | zero =>
      cases hu
      rcases h12 with ⟨hb, _⟩ | hb
      · exact value_valid hU T mod _ x hb hv
      · exact hU T mod _ hb x hv
    | succ i => exact alt_valid hU rest mod ts' i u x h3 hu hv
end

end FastBer.Ast
