import Verif.Proofs.SchemaComb
/-! # Round trip of generated types -/
namespace FastBer
open Spec

/-- Decoding an encoding, whatever follows it, into any object of the type. -/
def Ty.RoundLaw (t : Ty) : Prop :=
  ∀ {o x e}, t.Rep o x e → t.Valid x → e.length < 2 ^ 64 → ∀ {o0}, t.Holds o0 → ∀ {s tag0 v},
    BerView.assign (e ++ s) tag0 = .ok v → ∃ o', t.codec.decode o0 v = .ok (true, o') ∧ t.Rep o' x e

theorem assign_nil (tag0 : Int) : BerView.assign [] tag0 = .ok (BerView.invalid tag0) := by
  simp [BerView.assign, extractTag, extractLength, u64]

theorem identifier_mem {v : BerView} {m : Bytes} (s : Bytes) (hm : v.mem = m) (hne : m ≠ []) :
    BerView.identifier { v with mem := m ++ s } = v.identifier ∧
    BerView.construction { v with mem := m ++ s } = v.construction ∧
    BerView.cls { v with mem := m ++ s } = v.cls := by
  cases m with
  | nil => exact (hne rfl).elim
  | cons b r => simp [BerView.identifier, BerView.construction, BerView.cls, hm]

/-- Matching does not depend on what follows the element. -/
theorem matches_extend {v w : BerView} {id : Ident} {k : Construction} (h : Matches v id k w) (s : Bytes)
    (hm : v.hdr + v.len = v.mem.length) (hh : 0 < v.mem.length) :
    ∃ w', Matches { v with mem := v.mem ++ s } id k w' ∧ w'.len = w.len := by
  have hne : v.mem ≠ [] := by intro hc; rw [hc] at hh; simp at hh
  obtain ⟨hi, hk, hc⟩ := identifier_mem (v := v) s rfl hne
  have hcont : BerView.content { v with mem := v.mem ++ s } = v.content := by
    simp only [BerView.content, List.length_append]
    rw [if_pos (by omega), if_pos (by omega), List.drop_append_of_le_length (by omega),
      List.take_append_of_le_length (by simp; omega)]
  cases id with
  | single i =>
    obtain ⟨h1, h2, h3, rfl⟩ := h
    exact ⟨_, ⟨h1, by rw [hi]; exact h2, by rw [hk]; exact h3, rfl⟩, rfl⟩
  | double o i =>
    obtain ⟨h1, h2, h3, c, hc, hr⟩ := h
    exact ⟨w, ⟨h1, by rw [hi]; exact h2, by rw [hk]; exact h3, c, by rw [hcont]; exact hc, hr⟩, rfl⟩

/-- The view on an encoding followed by anything. -/
theorem elem_assign {t : Ty} (ht : t.EncLaws) {o : Obj} {x : Val} {e : Bytes} (h : t.Rep o x e)
    (hl : e.length < 2 ^ 64) (s : Bytes) (tag0 : Int) :
    ∃ v i, BerView.assign (e ++ s) tag0 = .ok v ∧ v.valid = true ∧ v.berLength = e.length ∧ 0 < e.length ∧
      i ∈ t.outer ∧ v.identifier = .ok i ∧ v.mem = e ++ s ∧ v.hdr + v.len = e.length := by
  obtain ⟨v, i, h1, h2, h3, h4, h5⟩ := ht.elem h hl
  obtain ⟨hm, hh, hb, _⟩ := assign_valid h1 h2
  have hp : 0 < e.length := by omega
  refine ⟨_, i, assign_append h1 h2 s tag0, h2, ?_, hp, h4, ?_, rfl, h3⟩
  · show u64 (v.hdr + v.len) = _
    rw [h3, u64_of_lt hl]
  · rw [(identifier_mem s hm (by intro hc; rw [hc] at hp; simp at hp)).1]; exact h5

/-! ## Leaves -/

theorem small_round {id : Ident} (hid : identOk id) {max : Nat} (hmax : max ≤ 100) {o o0 : Obj} {x x0 : Val}
    {e e0 : Bytes} (h : smallRep max id o x e) (h0 : smallRep max id o0 x0 e0) {s : Bytes} {tag0 : Int} {v : BerView}
    (ha : BerView.assign (e ++ s) tag0 = .ok v) :
    ∃ o', onRaw (fun d => Small.decode id max d v) o0 = .ok (true, o') ∧ smallRep max id o' x e := by
  obtain ⟨c, d, rfl, rfl, hw, rfl⟩ := smallRep_iff.mp h
  obtain ⟨c0, d0, rfl, rfl, hw0, rfl⟩ := smallRep_iff.mp h0
  have hlt := small_lt hid hmax hw.1
  rw [assign_tagged id hid _ _ _ _ hlt] at ha
  simp only [Exec.ok.injEq] at ha
  subst ha
  obtain ⟨w, h1, h2, h3⟩ := matches_tagged id hid .primitive c s hlt
  obtain ⟨d', h4, h5⟩ := hw0.decode_match hid hmax h1 h2 h3.symm (by rw [h3]; exact hw.1)
  exact ⟨.raw d', by simp [onRaw, h4], smallRep_iff.mpr ⟨c, d', rfl, rfl, h5, rfl⟩⟩

theorem cont_round {id : Ident} {o : Obj} {x : Val} {e : Bytes} (h : contRep id o x e) (c0 : Cont)
    {s : Bytes} {tag0 : Int} {v : BerView} (ha : BerView.assign (e ++ s) tag0 = .ok v) :
    ∃ c', Cont.decode id c0 v = .ok (true, c') ∧ contRep id (.cont c') x e ∧
      x = .content (e.drop (e.length - c'.len)) ∧ c'.len ≤ e.length := by
  obtain ⟨v0, w, h1, h2, h3, h4, h5, rfl, rfl⟩ := h
  have hv := (matches_valid h4).1
  obtain ⟨hm, hh, hb, _⟩ := assign_valid h1 hv
  rw [assign_append h1 hv s tag0] at ha
  simp only [Exec.ok.injEq] at ha
  subst ha
  obtain ⟨w', hw', hwl⟩ := matches_extend h4 s (by rw [hm]; exact h2) (by rw [hm]; omega)
  rw [hm] at hw'
  refine ⟨⟨e, w.len⟩, ?_, ⟨v0, w, h1, h2, h3, h4, h5, rfl, rfl⟩, rfl, h5⟩
  have hcorr := hasCorrectHeader_true.mpr ⟨w', hw'⟩
  simp only [Cont.decode, hcorr, Exec.ok_bind, Bool.not_true, Bool.false_eq_true, if_false,
    innerView_of_matches hw', BerView.ber, BerView.berLength, h2, u64_of_lt h3]
  rw [if_pos (by simp)]
  simp [hwl]

theorem leaf_round (k : Leaf) (id : Ident) (hid : identOk id) : (Ty.leaf k id).RoundLaw := by
  intro o x e h hval hl o0 h0 s tag0 v ha
  obtain ⟨x0, e0, h0⟩ := h0
  have hcont : ∀ (h : contRep id o x e) (h0 : contRep id o0 x0 e0),
      ∃ o', onCont (fun c => Cont.decode id c v) o0 = .ok (true, o') ∧ contRep id o' x e := by
    intro h h0
    obtain ⟨c0, rfl, _⟩ := contRep_iff.mp h0
    obtain ⟨c', h1, h2, _⟩ := cont_round h c0 ha
    exact ⟨.cont c', by simp [onCont, h1], h2⟩
  cases k with
  | int => exact small_round hid (by omega) h h0 ha
  | enum => exact small_round hid (by omega) h h0 ha
  | real cmp => exact small_round hid (by omega) h h0 ha
  | bool =>
    obtain ⟨b, rfl, rfl, rfl⟩ := h
    obtain ⟨b0, rfl, rfl, rfl⟩ := h0
    rw [assign_tagged id hid _ _ _ _ hl] at ha
    simp only [Exec.ok.injEq] at ha
    subst ha
    obtain ⟨w, h1, h2, h3⟩ := matches_tagged id hid .primitive [b] s hl
    refine ⟨.raw (tagged id .primitive [b]), ?_, ⟨b, rfl, rfl, rfl⟩⟩
    simp [Ty.codec, Leaf.codec, boolCodec, onRaw, Boolean.decode_match h1 h2 h3, setBack_tagged]
  | null =>
    obtain ⟨rfl, rfl, rfl⟩ := h
    obtain ⟨rfl, rfl, rfl⟩ := h0
    rw [assign_tagged id hid _ _ _ _ hl] at ha
    simp only [Exec.ok.injEq] at ha
    subst ha
    obtain ⟨w, h1, h2, h3⟩ := matches_tagged id hid .primitive [] s hl
    exact ⟨.raw (tagged id .primitive []),
      by simp [Ty.codec, Leaf.codec, nullCodec, onRaw, Null.decode_match h1 h3], ⟨rfl, rfl, rfl⟩⟩
  | str => exact hcont h h0
  | oid => exact hcont h h0
  | time cmp =>
    obtain ⟨c0, rfl, _⟩ := contRep_iff.mp h0
    obtain ⟨c', h1, h2, rfl, h4⟩ := cont_round h c0 ha
    refine ⟨.cont c', ?_, h2⟩
    simp only [Ty.Valid, List.length_drop] at hval
    simp only [Ty.codec, Leaf.codec, timeCodec, onCont, timeDecode, h1, Exec.ok_bind]
    rw [if_neg (by omega)]
    rfl

/-! ## SEQUENCE OF -/

theorem decodeChildren_round {t : Ty} (ht : t.EncLaws) (hr : t.RoundLaw) {os : List Obj} {xs : List Val}
    {es : List Bytes} (h : all3 t.Rep os xs es) (hval : ∀ y ∈ xs, t.Valid y) (hl : es.flatten.length < 2 ^ 64)
    (tag0 : Int) :
    ∃ os', decodeChildren t.codec.init t.codec.decode es.flatten tag0 = .ok (true, os') ∧ all3 t.Rep os' xs es := by
  induction os generalizing xs es tag0 with
  | nil =>
    obtain ⟨rfl, rfl⟩ := all3_nil.mp h
    refine ⟨[], ?_, trivial⟩
    rw [decodeChildren]
    simp [assign_nil, BerView.invalid]
  | cons o os ih =>
    obtain ⟨x, xs, e, es, rfl, rfl, h1, h2⟩ := all3_cons.mp h
    rw [List.flatten_cons, List.length_append] at hl
    obtain ⟨v, i, ha, hv, hb, hp, _⟩ := elem_assign ht h1 (by omega) es.flatten tag0
    obtain ⟨o0, x0, e0, hi, hrep0, _⟩ := ht.init
    obtain ⟨o', hd, hrep⟩ := hr h1 (hval x (by simp)) (by omega) ⟨x0, e0, hrep0⟩ ha
    obtain ⟨os', hos, hall⟩ := ih h2 (fun y hy => hval y (by simp [hy])) (by omega) v.tag
    refine ⟨o' :: os', ?_, ⟨hrep, hall⟩⟩
    rw [decodeChildren, List.flatten_cons, ha]
    simp only [hv, if_true, hi, Exec.ok_bind, hd, Bool.not_true, Bool.false_eq_true, if_false]
    rw [dif_pos ⟨by omega, by simp; omega⟩, hb]
    rw [hi] at hos
    simp [hos]

theorem seqOf_round (id : Ident) (hid : identOk id) (t : Ty) (ht : t.EncLaws) (hr : t.RoundLaw) :
    (Ty.seqOf id t).RoundLaw := by
  rintro o x e ⟨os, xs, es, rfl, rfl, rfl, h⟩ hval hl o0 ⟨x0, e0, os0, xs0, es0, rfl, rfl, rfl, h0⟩ s tag0 v ha
  have hc := content_le_tagged id .constructed es.flatten
  rw [assign_tagged id hid _ _ _ _ hl] at ha
  simp only [Exec.ok.injEq] at ha
  subst ha
  obtain ⟨w, h1, h2, h3⟩ := matches_tagged id hid .constructed es.flatten s hl
  obtain ⟨os', hd, hall⟩ := decodeChildren_round ht hr h hval (by omega) 0
  refine ⟨.list os', ?_, ⟨os', xs, es, rfl, rfl, rfl, hall⟩⟩
  simp [Ty.codec, seqOfCodec, hasCorrectHeader_true.mpr ⟨w, h1⟩, innerView_of_matches h1, h2, hd]

/-! ## Components -/

theorem field_decode_mand {c : Comp} (hk : c.kind = .mandatory) (o : Obj) (v : BerView) :
    c.field.decode o v = c.ty.codec.decode o v := by
  simp [Field.decode, Comp.field, hk]

theorem field_decode_opt {c : Comp} (hk : c.kind ≠ .mandatory) (o : Obj) (v : BerView) (hv : v.valid = true)
    {i : Id} (hi : v.identifier = .ok i) (hm : i ∈ c.ty.codec.ids) :
    c.field.decode o v = (do
      let o' ← c.ty.codec.init
      let r ← c.ty.codec.decode o' v
      .ok (r.1, .some r.2)) := by
  rw [identifier_eq_ok] at hi
  have hcon : c.ty.codec.ids.contains (⟨i.cls, v.tag⟩ : Id) = true := by
    rw [hi.2]; simpa using hm
  cases hkk : c.kind with
  | mandatory => exact (hk hkk).elim
  | optional =>
    simp only [Field.decode, Comp.field, hkk, hv, if_true, hi.1, Exec.ok_bind, hcon]
  | default d =>
    simp only [Field.decode, Comp.field, hkk, hv, if_true, hi.1, Exec.ok_bind, hcon]

theorem isMandatory_iff {c : Comp} : c.field.isMandatory = true ↔ c.kind = .mandatory := by
  cases hk : c.kind <;> simp [Field.isMandatory, Comp.field, hk]

def Comp.Holds (c : Comp) (o : Obj) : Prop := ∃ x e, c.Rep o x e

/-- Decoding a present component. -/
theorem comp_round {c : Comp} (ht : c.ty.EncLaws) (hr : c.ty.RoundLaw) {o o0 : Obj} {x : Val} {e : Bytes}
    (h : c.Rep o x e) (hne : e ≠ []) (hval : c.Valid x) (hl : e.length < 2 ^ 64) (h0 : c.Holds o0)
    {s : Bytes} {tag0 : Int} {v : BerView} (ha : BerView.assign (e ++ s) tag0 = .ok v) :
    ∃ o', c.field.decode o0 v = .ok (true, o') ∧ c.Rep o' x e := by
  rcases comp_cases h with ⟨hk, h1⟩ | ⟨hk, rfl, rfl, rfl⟩ | ⟨hk, o', x', rfl, rfl, h1⟩
  · obtain ⟨x0, e0, h0⟩ := h0
    rcases comp_cases h0 with ⟨_, h2⟩ | ⟨hk', _⟩ | ⟨hk', _⟩
    · rw [field_decode_mand hk]
      simp only [Comp.Valid, hk, compValid] at hval
      obtain ⟨o', h3, h4⟩ := hr h1 hval hl ⟨x0, e0, h2⟩ ha
      exact ⟨o', h3, comp_mk_mand hk h4⟩
    · exact (hk' hk).elim
    · exact (hk' hk).elim
  · exact (hne rfl).elim
  · obtain ⟨v', i, ha', hv, _, _, hi, hid, _⟩ := elem_assign ht h1 hl s tag0
    rw [ha] at ha'
    simp only [Exec.ok.injEq] at ha'
    subst ha'
    obtain ⟨oi, xi, ei, hinit, hrepi, _⟩ := ht.init
    have hval' : c.ty.Valid x' := by
      cases hkk : c.kind with
      | mandatory => exact (hk hkk).elim
      | optional => simpa [Comp.Valid, hkk, compValid] using hval
      | default d => simpa [Comp.Valid, hkk, compValid] using hval
    obtain ⟨o2, h3, h4⟩ := hr h1 hval' hl ⟨xi, ei, hrepi⟩ ha
    rw [field_decode_opt hk o0 v hv hid (by rw [ht.ids]; exact hi)]
    exact ⟨.some o2, by simp [hinit, h3], comp_mk_some hk h4⟩

/-- The component is present exactly if it has octets. -/
theorem comp_elem {c : Comp} (ht : c.ty.EncLaws) {o : Obj} {x : Val} {e : Bytes}
    (h : c.Rep o x e) (hl : e.length < 2 ^ 64) (s : Bytes) (tag0 : Int) :
    (c.kind ≠ .mandatory ∧ e = [] ∧ x = .absent ∧ o = .none) ∨
    ∃ v i, BerView.assign (e ++ s) tag0 = .ok v ∧ v.valid = true ∧ v.berLength = e.length ∧ 0 < e.length ∧
      i ∈ c.ty.outer ∧ v.identifier = .ok i ∧ v.mem = e ++ s := by
  rcases comp_cases h with ⟨hk, h1⟩ | ⟨hk, rfl, rfl, rfl⟩ | ⟨hk, o', x', rfl, rfl, h1⟩
  · obtain ⟨v, i, h2, h3, h4, h5, h6, h7, h8, _⟩ := elem_assign ht h1 hl s tag0
    exact .inr ⟨v, i, h2, h3, h4, h5, h6, h7, h8⟩
  · exact .inl ⟨hk, rfl, rfl, rfl⟩
  · obtain ⟨v, i, h2, h3, h4, h5, h6, h7, h8, _⟩ := elem_assign ht h1 hl s tag0
    exact .inr ⟨v, i, h2, h3, h4, h5, h6, h7, h8⟩

def compsHold (cs : List Comp) (os : List Obj) : Prop := ∃ xs es, compsRep cs os xs es

theorem compsHold_cons {c : Comp} {cs : List Comp} {os : List Obj} (h : compsHold (c :: cs) os) :
    ∃ o os', os = o :: os' ∧ c.Holds o ∧ compsHold cs os' := by
  obtain ⟨xs, es, h⟩ := h
  obtain ⟨o, os', x, xs', e, es', rfl, rfl, rfl, h1, h2⟩ := compsRep_cons.mp h
  exact ⟨o, os', rfl, ⟨x, e, h1⟩, ⟨xs', es', h2⟩⟩

/-! ## SEQUENCE -/

def compFirsts : List Comp → List Id
  | [] => []
  | c :: cs => c.ty.outer ++ (if c.field.isMandatory then [] else compFirsts cs)

theorem Fields.firsts_eq : (fs : Fields) → fs.firsts = compFirsts fs.comps
  | .nil => rfl
  | .cons .mandatory l t rest => by simp [Fields.firsts, Fields.comps, compFirsts, Field.isMandatory, Comp.field]
  | .cons .optional l t rest => by
    simp [Fields.firsts, Fields.comps, compFirsts, Fields.firsts_eq rest, Field.isMandatory, Comp.field]
  | .cons (.default d) l t rest => by
    simp [Fields.firsts, Fields.comps, compFirsts, Fields.firsts_eq rest, Field.isMandatory, Comp.field]

def compSeqUnamb : List Comp → Prop
  | [] => True
  | c :: cs => (c.kind ≠ .mandatory → (∀ i, i ∈ c.labels ↔ i ∈ c.ty.outer) ∧ (∀ i ∈ c.labels, i ∉ compFirsts cs)) ∧
      compSeqUnamb cs

theorem Fields.seqUnamb_iff : (fs : Fields) → (fs.SeqUnamb ↔ compSeqUnamb fs.comps)
  | .nil => Iff.rfl
  | .cons .mandatory l t rest => by simp [Fields.SeqUnamb, Fields.comps, compSeqUnamb, Fields.seqUnamb_iff rest]
  | .cons .optional l t rest => by
    simp [Fields.SeqUnamb, Fields.comps, compSeqUnamb, Fields.seqUnamb_iff rest, Fields.firsts_eq, and_assoc]
  | .cons (.default d) l t rest => by
    simp [Fields.SeqUnamb, Fields.comps, compSeqUnamb, Fields.seqUnamb_iff rest, Fields.firsts_eq, and_assoc]

/-- What the encoding of the remaining components begins with. -/
theorem comps_first {cs : List Comp} (hcs : ∀ c ∈ cs, c.ty.EncLaws) {os : List Obj} {xs : List Val}
    {es : List Bytes} (h : compsRep cs os xs es) (hl : es.flatten.length < 2 ^ 64) (tag0 : Int) :
    es.flatten = [] ∨ ∃ v i, BerView.assign es.flatten tag0 = .ok v ∧ v.valid = true ∧ v.identifier = .ok i ∧
      i ∈ compFirsts cs := by
  induction cs generalizing os xs es with
  | nil => obtain ⟨rfl, rfl, rfl⟩ := compsRep_nil.mp h; exact .inl rfl
  | cons c cs ih =>
    obtain ⟨o, os, x, xs, e, es, rfl, rfl, rfl, h1, h2⟩ := compsRep_cons.mp h
    rw [List.flatten_cons, List.length_append] at hl
    rw [List.flatten_cons]
    rcases comp_elem (hcs c (by simp)) h1 (by omega) es.flatten tag0 with ⟨hk, rfl, rfl, rfl⟩ |
      ⟨v, i, h3, h4, _, _, h5, h6, _⟩
    · rw [List.nil_append]
      rcases ih (fun c hc => hcs c (by simp [hc])) h2 (by omega) with h | ⟨v, i, h3, h4, h5, h6⟩
      · exact .inl h
      · refine .inr ⟨v, i, h3, h4, h5, ?_⟩
        have : ¬ c.field.isMandatory = true := by rw [isMandatory_iff]; exact hk
        simp only [compFirsts, if_neg this, List.mem_append]
        exact .inr h6
    · refine .inr ⟨v, i, h3, h4, h6, ?_⟩
      simp only [compFirsts, List.mem_append]
      exact .inl h5

theorem decodeSeq_round {cs : List Comp} (hcs : ∀ c ∈ cs, c.ty.EncLaws) (hrs : ∀ c ∈ cs, c.ty.RoundLaw)
    (hu : compSeqUnamb cs) {os os0 : List Obj} {xs : List Val} {es : List Bytes}
    (h : compsRep cs os xs es) (hval : compsValid cs xs) (hl : es.flatten.length < 2 ^ 64)
    (h0 : compsHold cs os0) (it : Iter) (hb : it.buf = es.flatten) {tag0 : Int}
    (ha : BerView.assign it.buf tag0 = .ok it.view) :
    ∃ os', decodeSeq (cs.map Comp.field) os0 it = .ok (true, os') ∧ compsRep cs os' xs es := by
  induction cs generalizing os os0 xs es it tag0 with
  | nil =>
    obtain ⟨rfl, rfl, rfl⟩ := compsRep_nil.mp h
    obtain ⟨xs0, es0, h0⟩ := h0
    obtain ⟨rfl, _, _⟩ := compsRep_nil.mp h0
    exact ⟨[], rfl, trivial⟩
  | cons c cs ih =>
    obtain ⟨o, os, x, xs, e, es, rfl, rfl, rfl, h1, h2⟩ := compsRep_cons.mp h
    obtain ⟨o0, os0, rfl, hh0, hhs0⟩ := compsHold_cons h0
    obtain ⟨hval1, hval2⟩ := hval
    obtain ⟨hu1, hu2⟩ := hu
    rw [List.flatten_cons] at hb
    rw [List.flatten_cons, List.length_append] at hl
    have hc := hcs c (by simp)
    have hcs' : ∀ c ∈ cs, c.ty.EncLaws := fun c hc => hcs c (by simp [hc])
    have hrs' : ∀ c ∈ cs, c.ty.RoundLaw := fun c hc => hrs c (by simp [hc])
    rcases comp_elem hc h1 (by omega) es.flatten tag0 with ⟨hk, rfl, rfl, rfl⟩ | ⟨v, i, h3, h4, hbl, hp, h5, h6, h7⟩
    · -- absent
      rw [List.nil_append] at hb
      have hnm : c.field.isMandatory = false := by
        cases hm : c.field.isMandatory with
        | false => rfl
        | true => exact (hk (isMandatory_iff.mp hm)).elim
      have hpres : (if it.view.valid then do
          let cl ← it.view.cls
          .ok (c.field.labels.contains ⟨cl, it.view.tag⟩)
        else .ok false : Exec Bool) = .ok false := by
        rcases comps_first hcs' h2 (by omega) tag0 with he | ⟨v, i, h3, h4, h5, h6⟩
        · rw [hb, he, assign_nil] at ha
          simp only [Exec.ok.injEq] at ha
          rw [← ha]; simp [BerView.invalid]
        · rw [hb, h3] at ha
          simp only [Exec.ok.injEq] at ha
          rw [← ha]
          rw [identifier_eq_ok] at h5
          simp only [h4, if_true, h5.1, h5.2, Exec.ok_bind]
          congr 1
          cases hcn : c.field.labels.contains (⟨i.cls, i.tag⟩ : Id) with
          | false => rfl
          | true =>
            exfalso
            exact (hu1 hk).2 i (by simpa [Comp.field] using hcn) h6
      obtain ⟨os', h8, h9⟩ := ih hcs' hrs' hu2 h2 hval2 (by omega) hhs0 it hb ha
      refine ⟨.none :: os', ?_, ⟨comp_mk_none hk, h9⟩⟩
      simp only [List.map_cons, decodeSeq, hnm, Bool.false_eq_true, if_false, hpres, Exec.ok_bind, h8]
    · -- present
      have hne : e ≠ [] := by intro hcn; rw [hcn] at hp; simp at hp
      rw [hb, h3] at ha
      simp only [Exec.ok.injEq] at ha
      obtain ⟨o', h8, h9⟩ := comp_round hc (hrs c (by simp)) h1 hne hval1 (by omega) hh0 h3
      -- the next position
      have hnext : ∃ it', it.next = .ok it' ∧ it'.buf = es.flatten ∧
          BerView.assign it'.buf it.view.tag = .ok it'.view := by
        have hlen : ¬ it.view.berLength > it.buf.length := by rw [← ha, hbl, hb]; simp
        have hdrop : it.buf.drop it.view.berLength = es.flatten := by rw [← ha, hbl, hb]; simp
        simp only [Iter.next, if_neg hlen, hdrop]
        rcases comps_first hcs' h2 (by omega) it.view.tag with he | ⟨v', i', h3', _⟩
        · rw [he, assign_nil]; exact ⟨_, rfl, rfl, rfl⟩
        · rw [h3']; exact ⟨_, rfl, rfl, h3'⟩
      obtain ⟨it', hn1, hn2, hn3⟩ := hnext
      obtain ⟨os', h10, h11⟩ := ih hcs' hrs' hu2 h2 hval2 (by omega) hhs0 it' hn2 hn3
      refine ⟨o' :: os', ?_, ⟨h9, h11⟩⟩
      subst ha
      cases hm : c.field.isMandatory with
      | true =>
        simp [decodeSeq, hm, h8, hn1, h10]
      | false =>
        have hk : c.kind ≠ .mandatory := by intro hcn; rw [isMandatory_iff.mpr hcn] at hm; cases hm
        rw [identifier_eq_ok] at h6
        have hcn : c.field.labels.contains (⟨i.cls, i.tag⟩ : Id) = true := by
          simpa [Comp.field] using ((hu1 hk).1 i).mpr h5
        simp only [List.map_cons, decodeSeq, hm, h4, h6.1, h6.2, hcn, h8, hn1, h10, Bool.false_eq_true, if_false,
          if_true, Exec.ok_bind, Bool.not_true]

/-- From a matching header to the children. -/
theorem childIter_of_matches {v w : BerView} {id : Ident} {k : Construction} {c : Bytes} (h : Matches v id k w)
    (hc : w.content = .ok c) : childIter v id = Iter.mk' c := by
  cases id with
  | single i => obtain ⟨_, _, _, rfl⟩ := h; simp [childIter, BerView.begin, hc]
  | double o i =>
    obtain ⟨_, _, _, c', hc', hw, _⟩ := h
    simp [childIter, BerView.begin, hc', Iter.mk', hw, hc]

/-- Header part of SEQUENCE and SET decoding on a canonical element. -/
theorem decodeCollection_tagged (id : Ident) (hid : identOk id) (fs : List Field)
    (body : List Obj → Iter → Exec (Bool × List Obj)) (os0 : List Obj) (content s : Bytes) (tag0 : Int) (v : BerView)
    (hl : (tagged id .constructed content).length < 2 ^ 64)
    (ha : BerView.assign (tagged id .constructed content ++ s) tag0 = .ok v) :
    decodeCollection id fs body os0 v = (if fs.isEmpty then .ok (true, .struct os0) else do
      let it ← Iter.mk' content
      let r ← body os0 it
      .ok (r.1, .struct r.2)) := by
  rw [assign_tagged id hid _ _ _ _ hl] at ha
  simp only [Exec.ok.injEq] at ha
  subst ha
  obtain ⟨w, h1, h2, h3⟩ := matches_tagged id hid .constructed content s hl
  have hv := (matches_valid h1).1
  simp only [decodeCollection, hv, hasCorrectHeader_true.mpr ⟨w, h1⟩, Bool.not_true, Bool.false_eq_true, if_false,
    Exec.ok_bind, childIter_of_matches h1 h2]

theorem seq_round (id : Ident) (hid : identOk id) (fs : Fields) (hfs : ∀ c ∈ fs.comps, c.ty.EncLaws)
    (hrs : ∀ c ∈ fs.comps, c.ty.RoundLaw) (hu : fs.SeqUnamb) : (Ty.seq id fs).RoundLaw := by
  rintro o x e ⟨os, xs, es, rfl, rfl, rfl, h⟩ hval hl o0 ⟨x0, e0, os0, xs0, es0, rfl, rfl, rfl, h0⟩ s tag0 v ha
  have hc := content_le_tagged id .constructed es.flatten
  rw [Fields.rep_iff] at h h0
  have hval' := (Fields.valid_iff _ _).mp hval
  rw [Fields.seqUnamb_iff] at hu
  have hdec : (Ty.seq id fs).codec.decode (.struct os0) v = decodeCollection id fs.fields (decodeSeq fs.fields) os0 v := rfl
  rw [hdec, decodeCollection_tagged id hid _ _ _ _ _ _ _ hl ha, Fields.fields_eq]
  have hit : ∃ it, Iter.mk' es.flatten = .ok it ∧ it.buf = es.flatten ∧ BerView.assign it.buf 0 = .ok it.view := by
    rcases comps_first hfs h (by omega) 0 with he | ⟨v', i', h3', _⟩
    · rw [he]; exact ⟨⟨[], _⟩, rfl, rfl, rfl⟩
    · exact ⟨⟨es.flatten, v'⟩, by simp [Iter.mk', BerView.parse, h3'], rfl, h3'⟩
  obtain ⟨it, hi1, hi2, hi3⟩ := hit
  obtain ⟨os', h8, h9⟩ := decodeSeq_round hfs hrs hu h hval' (by omega) ⟨_, _, h0⟩ it hi2 hi3
  by_cases hemp : (fs.comps.map Comp.field).isEmpty = true
  · rw [if_pos hemp]
    simp only [List.isEmpty_iff, List.map_eq_nil_iff] at hemp
    rw [hemp] at h h0
    obtain ⟨rfl, rfl, rfl⟩ := compsRep_nil.mp h
    obtain ⟨rfl, _, _⟩ := compsRep_nil.mp h0
    exact ⟨.struct [], rfl, [], [], [], rfl, rfl, rfl, by rw [Fields.rep_iff, hemp]; trivial⟩
  · rw [if_neg hemp]
    exact ⟨.struct os', by simp [hi1, h8], os', xs, es, rfl, rfl, rfl, by rw [Fields.rep_iff]; exact h9⟩

end FastBer
