import Verif.Spec.Schema
import Verif.Proofs.Container
import Verif.Proofs.Integer
/-! # Encoding side of generated types -/
namespace FastBer
open Spec

/-! ## Component lists -/

def Comp.field (c : Comp) : Field := ⟨c.kind, c.labels, c.ty.codec⟩
def Comp.Rep (c : Comp) : Obj → Val → Bytes → Prop := compRep c.kind c.ty.Rep
def Comp.Valid (c : Comp) : Val → Prop := compValid c.ty.Valid c.kind

theorem Fields.fields_eq : (fs : Fields) → fs.fields = fs.comps.map Comp.field
  | .nil => rfl
  | .cons k l t rest => by simp [Fields.fields, Fields.comps, Comp.field, Fields.fields_eq rest]

def compsRep : List Comp → List Obj → List Val → List Bytes → Prop
  | [], [], [], [] => True
  | c :: cs, o :: os, x :: xs, e :: es => c.Rep o x e ∧ compsRep cs os xs es
  | _, _, _, _ => False

theorem compsRep_cons {c : Comp} {cs : List Comp} {os : List Obj} {xs : List Val} {es : List Bytes} :
    compsRep (c :: cs) os xs es ↔ ∃ o os' x xs' e es', os = o :: os' ∧ xs = x :: xs' ∧ es = e :: es' ∧
      c.Rep o x e ∧ compsRep cs os' xs' es' := by
  constructor
  · intro h
    cases os <;> cases xs <;> cases es <;> first | exact h.elim | exact ⟨_, _, _, _, _, _, rfl, rfl, rfl, h⟩
  · rintro ⟨_, _, _, _, _, _, rfl, rfl, rfl, h⟩; exact h

theorem compsRep_nil {os : List Obj} {xs : List Val} {es : List Bytes} :
    compsRep [] os xs es ↔ os = [] ∧ xs = [] ∧ es = [] := by
  cases os <;> cases xs <;> cases es <;> simp [compsRep]

theorem Fields.rep_iff : (fs : Fields) → (os : List Obj) → (xs : List Val) → (es : List Bytes) →
    (fs.Rep os xs es ↔ compsRep fs.comps os xs es)
  | .nil, os, xs, es => by simp [Fields.Rep, Fields.comps, compsRep_nil]
  | .cons k l t rest, os, xs, es => by
    simp only [Fields.Rep, Fields.comps, compsRep_cons, Comp.Rep, Fields.rep_iff rest]

def AltC.alt (a : AltC) : Alt := ⟨a.labels, a.ty.codec⟩

theorem Alts.alts_eq : (as : Alts) → as.alts = as.list.map AltC.alt
  | .nil => rfl
  | .cons l t rest => by simp [Alts.alts, Alts.list, AltC.alt, Alts.alts_eq rest]

theorem Alts.rep_iff : (as : Alts) → (i : Nat) → (o : Obj) → (x : Val) → (e : Bytes) →
    (as.Rep i o x e ↔ ∃ a, as.list[i]? = some a ∧ a.ty.Rep o x e)
  | .nil, i, o, x, e => by simp [Alts.Rep, Alts.list]
  | .cons l t rest, 0, o, x, e => by simp [Alts.Rep, Alts.list]
  | .cons l t rest, i + 1, o, x, e => by simp [Alts.Rep, Alts.list, Alts.rep_iff rest]

theorem Alts.getElem_alts (as : Alts) (i : Nat) : as.alts[i]? = as.list[i]?.map AltC.alt := by
  rw [Alts.alts_eq]; simp

/-! ## all3 -/

section
variable {α β γ : Type} {R S : α → β → γ → Prop}

theorem all3_cons {a : α} {as : List α} {bs : List β} {cs : List γ} :
    all3 R (a :: as) bs cs ↔ ∃ b bs' c cs', bs = b :: bs' ∧ cs = c :: cs' ∧ R a b c ∧ all3 R as bs' cs' := by
  constructor
  · intro h
    cases bs <;> cases cs <;> first | exact h.elim | exact ⟨_, _, _, _, rfl, rfl, h⟩
  · rintro ⟨_, _, _, _, rfl, rfl, h⟩; exact h

theorem all3_nil {bs : List β} {cs : List γ} : all3 R [] bs cs ↔ bs = [] ∧ cs = [] := by
  cases bs <;> cases cs <;> simp [all3]

theorem all3_length {as : List α} {bs : List β} {cs : List γ} (h : all3 R as bs cs) :
    as.length = bs.length ∧ as.length = cs.length := by
  induction as generalizing bs cs with
  | nil => obtain ⟨rfl, rfl⟩ := all3_nil.mp h; simp
  | cons a as ih =>
    obtain ⟨b, bs', c, cs', rfl, rfl, _, h'⟩ := all3_cons.mp h
    have := ih h'
    simp [this.1, this.2.symm]
end

/-! ## Lengths -/

theorem tagged_length {id : Ident} (h : identOk id) (k : Construction) (content : Bytes)
    (hn : (tagged id k content).length < 2 ^ 64) :
    id.encodedLength content.length = (tagged id k content).length := by
  cases id with
  | single i =>
    have hl := length_element i.cls k i.tag.toNat content
    simp only [tagged, elementId] at hn ⊢
    rw [hl] at hn ⊢
    rw [length_headerId h k _ (by omega)]
    rfl
  | double o i =>
    have hl := length_element o.cls .constructed o.tag.toNat (elementId i k content)
    have hl' := length_element i.cls k i.tag.toNat content
    simp only [tagged, elementId] at hn hl hl' ⊢
    rw [hl] at hn ⊢
    rw [length_headerId h.1 .constructed _ (by omega)]
    rw [hl'] at hn ⊢
    rw [length_headerId h.2 k _ (by omega)]
    rfl

theorem Id.headerLength_mono (i : Id) {a b : Nat} (h : a ≤ b) : i.headerLength a ≤ i.headerLength b := by
  have := encodedLengthLength_mono h
  simp only [Id.headerLength]; omega

theorem Id.encodedLength_mono (i : Id) {a b : Nat} (h : a ≤ b) : i.encodedLength a ≤ i.encodedLength b := by
  have := i.headerLength_mono h
  simp only [Id.encodedLength]; omega

theorem Ident.headerLength_mono (i : Ident) {a b : Nat} (h : a ≤ b) : i.headerLength a ≤ i.headerLength b := by
  cases i with
  | single i => exact i.headerLength_mono h
  | double o i =>
    have := i.headerLength_mono h
    have := o.headerLength_mono (i.encodedLength_mono h)
    simp only [Ident.headerLength]; omega

theorem content_le_tagged (id : Ident) (k : Construction) (c : Bytes) : c.length ≤ (tagged id k c).length := by
  rw [tagged_eq]; simp

/-! ## Encoders -/

/-- `enc` writes exactly `e` when it fits and otherwise fails inside the buffer. -/
def Writes (enc : Bytes → Exec (EncodeResult × Bytes)) (e : Bytes) : Prop :=
  (∀ buf, e.length ≤ buf.length → enc buf = .ok (⟨true, e.length⟩, e ++ buf.drop e.length)) ∧
  (∀ buf, buf.length < e.length → ∃ buf', enc buf = .ok (.fail, buf') ∧ buf'.length = buf.length)

def WritesAll : List (Bytes → Exec (EncodeResult × Bytes)) → List Bytes → Prop
  | [], [] => True
  | f :: fs, e :: es => Writes f e ∧ WritesAll fs es
  | _, _ => False

theorem writes_nil : Writes (fun buf => .ok (⟨true, 0⟩, buf)) [] := by
  constructor
  · intro buf _; simp
  · intro buf h; simp at h

theorem encodeAll_writes (fs : List (Bytes → Exec (EncodeResult × Bytes))) (es : List Bytes)
    (h : WritesAll fs es) : Writes (encodeAll fs) es.flatten := by
  induction fs generalizing es with
  | nil =>
    cases es with
    | nil => exact writes_nil
    | cons e es => exact h.elim
  | cons f fs ih =>
    cases es with
    | nil => exact h.elim
    | cons e es =>
      obtain ⟨⟨h1, h2⟩, h3⟩ := h
      obtain ⟨i1, i2⟩ := ih es h3
      constructor
      · intro buf hb
        simp only [List.flatten_cons, List.length_append] at hb ⊢
        simp only [encodeAll, h1 buf (by omega), Exec.ok_bind, Bool.not_true, Bool.false_eq_true, if_false]
        rw [if_neg (by simp)]
        simp only [List.drop_left', List.take_left']
        rw [i1 _ (by rw [List.length_drop]; omega)]
        simp [List.append_assoc]
      · intro buf hb
        simp only [List.flatten_cons, List.length_append] at hb
        by_cases he : e.length ≤ buf.length
        · obtain ⟨b', hb', hl⟩ := i2 (buf.drop e.length) (by rw [List.length_drop]; omega)
          refine ⟨e ++ b', ?_, by simp [hl]; omega⟩
          simp only [encodeAll, h1 buf he, Exec.ok_bind, Bool.not_true, Bool.false_eq_true, if_false]
          rw [if_neg (by simp)]
          simp [hb', EncodeResult.fail]
        · obtain ⟨b', hb', hl⟩ := h2 buf (by omega)
          exact ⟨b', by simp [encodeAll, hb', EncodeResult.fail], hl⟩

theorem encodeWrapped_writes (id : Ident) (hid : identOk id) (enc : Bytes → Exec (EncodeResult × Bytes))
    (e : Bytes) (h : Writes enc e) (hlen : (tagged id .constructed e).length < 2 ^ 64) :
    Writes (encodeWrapped id enc) (tagged id .constructed e) := by
  obtain ⟨h1, h2⟩ := h
  have hl := tagged_length hid .constructed e hlen
  have hg : id.encodedLength 0 = id.headerLength 0 := by rw [Ident.encodedLength_eq]; simp
  have hm := id.headerLength_mono (Nat.zero_le e.length)
  have he := Ident.encodedLength_eq id e.length
  constructor
  · intro buf hb
    simp only [encodeWrapped]
    rw [if_neg (by omega), h1 _ (by simp; omega)]
    simp only [Exec.ok_bind, Bool.not_true, Bool.false_eq_true, if_false]
    have hpl : (buf.take (id.encodedLength 0)).length = id.encodedLength 0 := by simp; omega
    have := wrap_fits (buf.take (id.encodedLength 0)) e ((buf.drop (id.encodedLength 0)).drop e.length) id
      .constructed hid (by omega) (by simp; omega)
    rw [hpl] at this
    rw [← List.append_assoc, this]
    simp only [hl]
    congr 2
    congr 1
    have hsplit : buf = buf.take (id.encodedLength 0 + e.length) ++ buf.drop (id.encodedLength 0 + e.length) := by simp
    rw [List.drop_append, List.drop_of_length_le (by simp; omega)]
    simp only [List.drop_drop, List.nil_append]
    congr 1
    simp; omega
  · intro buf hb
    simp only [encodeWrapped]
    by_cases hc : buf.length < id.encodedLength 0
    · rw [if_pos hc]; exact ⟨buf, rfl, rfl⟩
    · rw [if_neg hc]
      by_cases hc2 : e.length ≤ (buf.drop (id.encodedLength 0)).length
      · rw [h1 _ hc2]
        simp only [Exec.ok_bind, Bool.not_true, Bool.false_eq_true, if_false]
        rw [wrap_short _ _ _ _ _ (by simp; simp at hc2; omega)]
        exact ⟨_, rfl, by simp; simp at hc2; omega⟩
      · obtain ⟨b', hb', hbl⟩ := h2 _ (Nat.lt_of_not_le hc2)
        rw [hb']
        refine ⟨buf.take (id.encodedLength 0) ++ b', by simp [EncodeResult.fail], ?_⟩
        simp only [List.length_append, hbl]; simp; omega

end FastBer
