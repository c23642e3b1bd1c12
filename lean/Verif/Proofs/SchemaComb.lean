import Verif.Proofs.SchemaLeaf
/-! # Constructed types: encoding side -/
namespace FastBer
open Spec

/-! ## SEQUENCE OF -/

theorem all3_unique {t : Ty} (ht : t.EncLaws) {os : List Obj} {xs xs' : List Val} {es es' : List Bytes}
    (h : all3 t.Rep os xs es) (h' : all3 t.Rep os xs' es') : xs = xs' ∧ es = es' := by
  induction os generalizing xs xs' es es' with
  | nil =>
    obtain ⟨rfl, rfl⟩ := all3_nil.mp h
    obtain ⟨rfl, rfl⟩ := all3_nil.mp h'
    exact ⟨rfl, rfl⟩
  | cons o os ih =>
    obtain ⟨x, xs, e, es, rfl, rfl, h1, h2⟩ := all3_cons.mp h
    obtain ⟨x', xs', e', es', rfl, rfl, h1', h2'⟩ := all3_cons.mp h'
    obtain ⟨rfl, rfl⟩ := ht.unique h1 h1'
    obtain ⟨rfl, rfl⟩ := ih h2 h2'
    exact ⟨rfl, rfl⟩

theorem all3_size {t : Ty} (ht : t.EncLaws) {os : List Obj} {xs : List Val} {es : List Bytes}
    (h : all3 t.Rep os xs es) (hl : es.flatten.length < 2 ^ 64) :
    (os.map t.codec.size).sum = es.flatten.length := by
  induction os generalizing xs es with
  | nil => obtain ⟨rfl, rfl⟩ := all3_nil.mp h; rfl
  | cons o os ih =>
    obtain ⟨x, xs, e, es, rfl, rfl, h1, h2⟩ := all3_cons.mp h
    rw [List.flatten_cons, List.length_append] at hl ⊢
    rw [List.map_cons, List.sum_cons, ih h2 (by omega), ht.size h1 (by omega)]

theorem all3_writes {t : Ty} (ht : t.EncLaws) {os : List Obj} {xs : List Val} {es : List Bytes}
    (h : all3 t.Rep os xs es) (hl : es.flatten.length < 2 ^ 64) :
    WritesAll (os.map t.codec.encode) es := by
  induction os generalizing xs es with
  | nil => obtain ⟨rfl, rfl⟩ := all3_nil.mp h; trivial
  | cons o os ih =>
    obtain ⟨x, xs, e, es, rfl, rfl, h1, h2⟩ := all3_cons.mp h
    rw [List.flatten_cons, List.length_append] at hl
    exact ⟨ht.writes h1 (by omega), ih h2 (by omega)⟩

theorem seqOf_laws (id : Ident) (hid : identOk id) (t : Ty) (ht : t.EncLaws) : (Ty.seqOf id t).EncLaws := by
  constructor
  · rintro o x e x' e' ⟨os, xs, es, rfl, rfl, rfl, h⟩ ⟨os', xs', es', ho, rfl, rfl, h'⟩
    simp only [Obj.list.injEq] at ho
    subst ho
    obtain ⟨rfl, rfl⟩ := all3_unique ht h h'
    exact ⟨rfl, rfl⟩
  · exact ⟨.list [], .list [], _, rfl, ⟨[], [], [], rfl, rfl, rfl, trivial⟩, by intro y hy; cases hy⟩
  · rintro o x e ⟨os, xs, es, rfl, rfl, rfl, h⟩ hl
    have hc := content_le_tagged id .constructed es.flatten
    have := tagged_length hid .constructed es.flatten hl
    simp only [Ty.codec, seqOfCodec]
    rw [all3_size ht h (by omega), this]
  · rintro o x e ⟨os, xs, es, rfl, rfl, rfl, h⟩ hl
    have hc := content_le_tagged id .constructed es.flatten
    obtain ⟨h1, h2⟩ := encodeWrapped_writes id hid _ _ (encodeAll_writes _ _ (all3_writes ht h (by omega))) hl
    constructor
    · intro buf hb
      simp only [Ty.codec, seqOfCodec, h1 buf hb, Exec.ok_bind, if_true]
    · intro buf hb
      obtain ⟨b', hb', hbl⟩ := h2 buf hb
      exact ⟨b', by simp [Ty.codec, seqOfCodec, hb', EncodeResult.fail], hbl⟩
  · rintro o x e ⟨os, xs, es, rfl, rfl, rfl, h⟩ hl
    exact elem_tagged id hid _ _ hl
  · rfl

/-! ## SEQUENCE and SET -/

theorem comp_cases {c : Comp} {o : Obj} {x : Val} {e : Bytes} (h : c.Rep o x e) :
    (c.kind = .mandatory ∧ c.ty.Rep o x e) ∨
    (c.kind ≠ .mandatory ∧ o = .none ∧ x = .absent ∧ e = []) ∨
    (c.kind ≠ .mandatory ∧ ∃ o' x', o = .some o' ∧ x = .present x' ∧ c.ty.Rep o' x' e) := by
  unfold Comp.Rep compRep at h
  split at h
  · rename_i hk; exact .inl ⟨hk, h⟩
  · rename_i hk
    rcases h with h | h
    · exact .inr (.inl ⟨hk, h⟩)
    · exact .inr (.inr ⟨hk, h⟩)

theorem comp_unique {c : Comp} (ht : c.ty.EncLaws) {o : Obj} {x x' : Val} {e e' : Bytes}
    (h : c.Rep o x e) (h' : c.Rep o x' e') : x = x' ∧ e = e' := by
  rcases comp_cases h with ⟨hk, h1⟩ | ⟨hk, rfl, rfl, rfl⟩ | ⟨hk, o1, x1, rfl, rfl, h1⟩ <;>
  rcases comp_cases h' with ⟨hk', h2⟩ | ⟨hk', ho, rfl, rfl⟩ | ⟨hk', o2, x2, ho, rfl, h2⟩
  · exact ht.unique h1 h2
  · exact (hk' hk).elim
  · exact (hk' hk).elim
  · exact (hk hk').elim
  · exact ⟨rfl, rfl⟩
  · cases ho
  · exact (hk hk').elim
  · cases ho
  · simp only [Obj.some.injEq] at ho
    subst ho
    obtain ⟨rfl, rfl⟩ := ht.unique h1 h2
    exact ⟨rfl, rfl⟩

theorem comp_mk_mand {c : Comp} {o : Obj} {x : Val} {e : Bytes} (hk : c.kind = .mandatory)
    (h : c.ty.Rep o x e) : c.Rep o x e := by
  unfold Comp.Rep compRep; rw [hk]; exact h

theorem comp_mk_none {c : Comp} (hk : c.kind ≠ .mandatory) : c.Rep .none .absent [] := by
  unfold Comp.Rep compRep
  split
  · rename_i h; exact (hk h).elim
  · exact .inl ⟨rfl, rfl, rfl⟩

theorem comp_mk_some {c : Comp} {o : Obj} {x : Val} {e : Bytes} (hk : c.kind ≠ .mandatory)
    (h : c.ty.Rep o x e) : c.Rep (.some o) (.present x) e := by
  unfold Comp.Rep compRep
  split
  · rename_i h; exact (hk h).elim
  · exact .inr ⟨_, _, rfl, rfl, h⟩

theorem comp_size {c : Comp} (ht : c.ty.EncLaws) {o : Obj} {x : Val} {e : Bytes}
    (h : c.Rep o x e) (hl : e.length < 2 ^ 64) : c.field.size o = e.length := by
  rcases comp_cases h with ⟨hk, h1⟩ | ⟨hk, rfl, rfl, rfl⟩ | ⟨hk, o', x', rfl, rfl, h1⟩
  · simp only [Field.size, Comp.field, hk]; exact ht.size h1 hl
  · cases hkk : c.kind with
    | mandatory => exact (hk hkk).elim
    | optional => simp [Field.size, Comp.field, hkk]
    | default d => simp [Field.size, Comp.field, hkk]
  · cases hkk : c.kind with
    | mandatory => exact (hk hkk).elim
    | optional => simp only [Field.size, Comp.field, hkk]; exact ht.size h1 hl
    | default d => simp only [Field.size, Comp.field, hkk]; exact ht.size h1 hl

theorem comp_writes {c : Comp} (ht : c.ty.EncLaws) {o : Obj} {x : Val} {e : Bytes}
    (h : c.Rep o x e) (hl : e.length < 2 ^ 64) : Writes (c.field.encode o) e := by
  rcases comp_cases h with ⟨hk, h1⟩ | ⟨hk, rfl, rfl, rfl⟩ | ⟨hk, o', x', rfl, rfl, h1⟩
  · have : c.field.encode o = c.ty.codec.encode o := by funext b; simp [Field.encode, Comp.field, hk]
    rw [this]; exact ht.writes h1 hl
  · have : c.field.encode .none = fun buf => .ok (⟨true, 0⟩, buf) := by
      funext b
      cases hkk : c.kind with
      | mandatory => exact (hk hkk).elim
      | optional => simp [Field.encode, Comp.field, hkk]
      | default d => simp [Field.encode, Comp.field, hkk]
    rw [this]; exact writes_nil
  · have : c.field.encode (.some o') = c.ty.codec.encode o' := by
      funext b
      cases hkk : c.kind with
      | mandatory => exact (hk hkk).elim
      | optional => simp [Field.encode, Comp.field, hkk]
      | default d => simp [Field.encode, Comp.field, hkk]
    rw [this]; exact ht.writes h1 hl

theorem comp_init {c : Comp} (ht : c.ty.EncLaws) :
    ∃ o x e, c.field.init = .ok o ∧ c.Rep o x e ∧ c.Valid x := by
  by_cases hk : c.kind = .mandatory
  · obtain ⟨o, x, e, h1, h2, h3⟩ := ht.init
    exact ⟨o, x, e, by simp [Field.init, Comp.field, hk, h1], comp_mk_mand hk h2, by
      simp only [Comp.Valid, hk, compValid]; exact h3⟩
  · refine ⟨.none, .absent, [], ?_, comp_mk_none hk, ?_⟩
    · cases hkk : c.kind with
      | mandatory => exact (hk hkk).elim
      | optional => simp [Field.init, Comp.field, hkk]
      | default d => simp [Field.init, Comp.field, hkk]
    · cases hkk : c.kind with
      | mandatory => exact (hk hkk).elim
      | optional => simp [Comp.Valid, hkk, compValid]
      | default d => simp [Comp.Valid, hkk, compValid]

def compsValid : List Comp → List Val → Prop
  | c :: cs, x :: xs => c.Valid x ∧ compsValid cs xs
  | _, _ => True

theorem Fields.valid_iff : (fs : Fields) → (xs : List Val) → (fs.Valid xs ↔ compsValid fs.comps xs)
  | .nil, xs => by cases xs <;> simp [Fields.Valid, Fields.comps, compsValid]
  | .cons k l t rest, [] => by simp [Fields.Valid, Fields.comps, compsValid]
  | .cons k l t rest, x :: xs => by
    simp only [Fields.Valid, Fields.comps, compsValid, Comp.Valid, Fields.valid_iff rest]

section
variable {cs : List Comp} (hcs : ∀ c ∈ cs, c.ty.EncLaws)
include hcs

theorem comps_unique {os : List Obj} {xs xs' : List Val} {es es' : List Bytes}
    (h : compsRep cs os xs es) (h' : compsRep cs os xs' es') : xs = xs' ∧ es = es' := by
  induction cs generalizing os xs xs' es es' with
  | nil =>
    obtain ⟨_, rfl, rfl⟩ := compsRep_nil.mp h
    obtain ⟨_, rfl, rfl⟩ := compsRep_nil.mp h'
    exact ⟨rfl, rfl⟩
  | cons c cs ih =>
    obtain ⟨o, os, x, xs, e, es, rfl, rfl, rfl, h1, h2⟩ := compsRep_cons.mp h
    obtain ⟨o', os', x', xs', e', es', ho, rfl, rfl, h1', h2'⟩ := compsRep_cons.mp h'
    simp only [List.cons.injEq] at ho
    obtain ⟨rfl, rfl⟩ := ho
    obtain ⟨rfl, rfl⟩ := comp_unique (hcs c (by simp)) h1 h1'
    obtain ⟨rfl, rfl⟩ := ih (fun c hc => hcs c (by simp [hc])) h2 h2'
    exact ⟨rfl, rfl⟩

theorem comps_size {os : List Obj} {xs : List Val} {es : List Bytes} (h : compsRep cs os xs es)
    (hl : es.flatten.length < 2 ^ 64) : sizeFields (cs.map Comp.field) os = es.flatten.length := by
  induction cs generalizing os xs es with
  | nil => obtain ⟨rfl, rfl, rfl⟩ := compsRep_nil.mp h; rfl
  | cons c cs ih =>
    obtain ⟨o, os, x, xs, e, es, rfl, rfl, rfl, h1, h2⟩ := compsRep_cons.mp h
    rw [List.flatten_cons, List.length_append] at hl ⊢
    simp only [List.map_cons, sizeFields]
    rw [ih (fun c hc => hcs c (by simp [hc])) h2 (by omega), comp_size (hcs c (by simp)) h1 (by omega)]

theorem comps_writes {os : List Obj} {xs : List Val} {es : List Bytes} (h : compsRep cs os xs es)
    (hl : es.flatten.length < 2 ^ 64) : WritesAll (encodersOf (cs.map Comp.field) os) es := by
  induction cs generalizing os xs es with
  | nil => obtain ⟨rfl, rfl, rfl⟩ := compsRep_nil.mp h; trivial
  | cons c cs ih =>
    obtain ⟨o, os, x, xs, e, es, rfl, rfl, rfl, h1, h2⟩ := compsRep_cons.mp h
    rw [List.flatten_cons, List.length_append] at hl
    exact ⟨comp_writes (hcs c (by simp)) h1 (by omega), ih (fun c hc => hcs c (by simp [hc])) h2 (by omega)⟩

theorem comps_init : ∃ os xs es, initFields (cs.map Comp.field) = .ok os ∧ compsRep cs os xs es ∧
    compsValid cs xs := by
  induction cs with
  | nil => exact ⟨[], [], [], rfl, trivial, trivial⟩
  | cons c cs ih =>
    obtain ⟨o, x, e, h1, h2, h3⟩ := comp_init (hcs c (by simp))
    obtain ⟨os, xs, es, h4, h5, h6⟩ := ih (fun c hc => hcs c (by simp [hc]))
    exact ⟨o :: os, x :: xs, e :: es, by simp [initFields, h1, h4], ⟨h2, h5⟩, h3, h6⟩

end

theorem coll_laws (id : Ident) (hid : identOk id) (fs : Fields) (hfs : ∀ c ∈ fs.comps, c.ty.EncLaws)
    (t : Ty) (body : List Obj → Iter → Exec (Bool × List Obj)) (hc : t.codec = collCodec id fs.fields body)
    (hr : ∀ o x e, t.Rep o x e ↔ ∃ os xs es, o = .struct os ∧ x = .struct xs ∧
      e = tagged id .constructed es.flatten ∧ fs.Rep os xs es)
    (hv : ∀ xs, t.Valid (.struct xs) ↔ fs.Valid xs) (ho : t.outer = [id.outer]) : t.EncLaws := by
  constructor
  · intro o x e x' e' hA hB
    obtain ⟨os, xs, es, rfl, rfl, rfl, h⟩ := (hr _ _ _).mp hA
    obtain ⟨os', xs', es', ho, rfl, rfl, h'⟩ := (hr _ _ _).mp hB
    simp only [Obj.struct.injEq] at ho
    subst ho
    rw [Fields.rep_iff] at h h'
    obtain ⟨rfl, rfl⟩ := comps_unique hfs h h'
    exact ⟨rfl, rfl⟩
  · obtain ⟨os, xs, es, h1, h2, h3⟩ := comps_init hfs
    refine ⟨.struct os, .struct xs, _, ?_, (hr _ _ _).mpr ⟨os, xs, es, rfl, rfl, rfl, (Fields.rep_iff _ _ _ _).mpr h2⟩, ?_⟩
    · rw [hc, Fields.fields_eq]; simp [collCodec, h1]
    · rw [hv, Fields.valid_iff]; exact h3
  · intro o x e hA hl
    obtain ⟨os, xs, es, rfl, rfl, rfl, h⟩ := (hr _ _ _).mp hA
    rw [Fields.rep_iff] at h
    have hc' := content_le_tagged id .constructed es.flatten
    have := tagged_length hid .constructed es.flatten hl
    rw [hc, Fields.fields_eq]
    simp only [collCodec]
    rw [comps_size hfs h (by omega), this]
  · intro o x e hA hl
    obtain ⟨os, xs, es, rfl, rfl, rfl, h⟩ := (hr _ _ _).mp hA
    rw [Fields.rep_iff] at h
    have hc' := content_le_tagged id .constructed es.flatten
    rw [hc, Fields.fields_eq]
    exact encodeWrapped_writes id hid _ _ (encodeAll_writes _ _ (comps_writes hfs h (by omega))) hl
  · intro o x e hA hl
    obtain ⟨os, xs, es, rfl, rfl, rfl, h⟩ := (hr _ _ _).mp hA
    rw [ho]
    exact elem_tagged id hid _ _ hl
  · rw [hc, ho]; rfl

/-! ## CHOICE -/

theorem Alts.outer_mem : (as : Alts) → (i : Nat) → (a : AltC) → (j : Id) → as.list[i]? = some a →
    j ∈ a.ty.outer → j ∈ as.outer
  | .nil, i, a, j, h, _ => by simp [Alts.list] at h
  | .cons l t rest, 0, a, j, h, hj => by
    simp only [Alts.list, List.getElem?_cons_zero, Option.some.injEq] at h
    subst h
    simp [Alts.outer, hj]
  | .cons l t rest, i + 1, a, j, h, hj => by
    simp only [Alts.list, List.getElem?_cons_succ] at h
    simp [Alts.outer, Alts.outer_mem rest i a j h hj]

theorem Alts.valid_iff : (as : Alts) → (i : Nat) → (x : Val) → (a : AltC) → as.list[i]? = some a →
    (as.Valid i x ↔ a.ty.Valid x)
  | .nil, i, x, a, h => by simp [Alts.list] at h
  | .cons l t rest, 0, x, a, h => by
    simp only [Alts.list, List.getElem?_cons_zero, Option.some.injEq] at h
    subst h; simp [Alts.Valid]
  | .cons l t rest, i + 1, x, a, h => by
    simp only [Alts.list, List.getElem?_cons_succ] at h
    simp only [Alts.Valid, Alts.valid_iff rest i x a h]

theorem choice_init {as : Alts} (has : ∀ a ∈ as.list, a.ty.EncLaws) (hne : as ≠ .nil) (cid : ChoiceIdent) :
    ∃ o x e, (choiceCodec cid as.alts).init = .ok (.alt 0 o) ∧ as.Rep 0 o x e ∧ as.Valid 0 x := by
  cases as with
  | nil => exact (hne rfl).elim
  | cons l t rest =>
    obtain ⟨o, x, e, h1, h2, h3⟩ := (has ⟨l, t⟩ (by simp [Alts.list])).init
    exact ⟨o, x, e, by simp [choiceCodec, Alts.alts, h1], h2, h3⟩

theorem choice_laws (cid : ChoiceIdent) (as : Alts) (has : ∀ a ∈ as.list, a.ty.EncLaws)
    (hwf : (Ty.choice cid as).WF) : (Ty.choice cid as).EncLaws := by
  have hget : ∀ {i : Nat} {a : AltC}, as.list[i]? = some a → a.ty.EncLaws :=
    fun h => has _ (List.mem_of_getElem? h)
  have huniq : ∀ {i o x e x' e'}, as.Rep i o x e → as.Rep i o x' e' → x = x' ∧ e = e' := by
    intro i o x e x' e' h h'
    rw [Alts.rep_iff] at h h'
    obtain ⟨a, ha, h⟩ := h
    obtain ⟨a', ha', h'⟩ := h'
    rw [ha] at ha'
    simp only [Option.some.injEq] at ha'
    subst ha'
    exact (hget ha).unique h h'
  cases cid with
  | untagged ids =>
    obtain ⟨rfl, hw, hne⟩ := hwf
    constructor
    · rintro o x e x' e' ⟨i, o1, x1, e1, rfl, rfl, h, rfl⟩ ⟨i', o1', x1', e1', ho, rfl, h', rfl⟩
      simp only [Obj.alt.injEq] at ho
      obtain ⟨rfl, rfl⟩ := ho
      obtain ⟨rfl, rfl⟩ := huniq h h'
      exact ⟨rfl, rfl⟩
    · obtain ⟨o, x, e, h1, h2, h3⟩ := choice_init has hne (.untagged as.outer)
      exact ⟨.alt 0 o, .alt 0 x, e, h1, ⟨0, o, x, e, rfl, rfl, h2, rfl⟩, h3⟩
    · rintro o x e ⟨i, o1, x1, e1, rfl, rfl, h, rfl⟩ hl
      rw [Alts.rep_iff] at h
      obtain ⟨a, ha, h⟩ := h
      simp only [Ty.codec, choiceCodec, Alts.getElem_alts, ha, Option.map_some, AltC.alt]
      exact (hget ha).size h hl
    · rintro o x e ⟨i, o1, x1, e1, rfl, rfl, h, rfl⟩ hl
      rw [Alts.rep_iff] at h
      obtain ⟨a, ha, h⟩ := h
      have := (hget ha).writes h hl
      have he : (Ty.choice (.untagged as.outer) as).codec.encode (.alt i o1) = a.ty.codec.encode o1 := by
        funext buf
        simp [Ty.codec, choiceCodec, Alts.getElem_alts, ha, AltC.alt]
      rw [he]; exact this
    · rintro o x e ⟨i, o1, x1, e1, rfl, rfl, h, rfl⟩ hl
      rw [Alts.rep_iff] at h
      obtain ⟨a, ha, h⟩ := h
      obtain ⟨v, j, h1, h2, h3, h4, h5⟩ := (hget ha).elem h hl
      exact ⟨v, j, h1, h2, h3, Alts.outer_mem as i a j ha h4, h5⟩
    · rfl
  | tagged id =>
    obtain ⟨hid, hw, hne⟩ := hwf
    constructor
    · rintro o x e x' e' ⟨i, o1, x1, e1, rfl, rfl, h, rfl⟩ ⟨i', o1', x1', e1', ho, rfl, h', rfl⟩
      simp only [Obj.alt.injEq] at ho
      obtain ⟨rfl, rfl⟩ := ho
      obtain ⟨rfl, rfl⟩ := huniq h h'
      exact ⟨rfl, rfl⟩
    · obtain ⟨o, x, e, h1, h2, h3⟩ := choice_init has hne (.tagged id)
      exact ⟨.alt 0 o, .alt 0 x, _, h1, ⟨0, o, x, e, rfl, rfl, h2, rfl⟩, h3⟩
    · rintro o x e ⟨i, o1, x1, e1, rfl, rfl, h, rfl⟩ hl
      rw [Alts.rep_iff] at h
      obtain ⟨a, ha, h⟩ := h
      dsimp only at hl
      have hc' := content_le_tagged id .constructed e1
      have := tagged_length hid .constructed e1 hl
      simp only [Ty.codec, choiceCodec, Alts.getElem_alts, ha, Option.map_some, AltC.alt]
      rw [(hget ha).size h (by omega), this]
    · rintro o x e ⟨i, o1, x1, e1, rfl, rfl, h, rfl⟩ hl
      rw [Alts.rep_iff] at h
      obtain ⟨a, ha, h⟩ := h
      dsimp only at hl
      have hc' := content_le_tagged id .constructed e1
      have := encodeWrapped_writes id hid _ _ ((hget ha).writes h (by omega)) hl
      have he : (Ty.choice (.tagged id) as).codec.encode (.alt i o1) = encodeWrapped id (a.ty.codec.encode o1) := by
        funext buf
        simp [Ty.codec, choiceCodec, Alts.getElem_alts, ha, AltC.alt]
      rw [he]; exact this
    · rintro o x e ⟨i, o1, x1, e1, rfl, rfl, h, rfl⟩ hl
      exact elem_tagged id hid _ _ hl
    · rfl

/-! ## All types -/

mutual
theorem Ty.encLaws : (t : Ty) → t.WF → t.EncLaws
  | .leaf k id, h => leaf_laws k id h
  | .seqOf id t, h => seqOf_laws id h.1 t (t.encLaws h.2)
  | .seq id fs, h => coll_laws id h.1 fs (fs.encLaws h.2) _ _ rfl (fun _ _ _ => Iff.rfl) (fun _ => Iff.rfl) rfl
  | .set id _ fs, h =>
    coll_laws id h.1 fs (fs.encLaws h.2) _ _ rfl (fun _ _ _ => Iff.rfl) (fun _ => Iff.rfl) rfl
  | .choice (.untagged _) as, h => choice_laws _ as (as.encLaws h.2.1) h
  | .choice (.tagged _) as, h => choice_laws _ as (as.encLaws h.2.1) h
theorem Fields.encLaws : (fs : Fields) → fs.WF → ∀ c ∈ fs.comps, c.ty.EncLaws
  | .nil, _ => by intro c hc; cases hc
  | .cons k l t rest, h => by
    intro c hc
    rcases List.mem_cons.mp hc with rfl | hc
    · exact t.encLaws h.1
    · exact rest.encLaws h.2.2 c hc
theorem Alts.encLaws : (as : Alts) → as.WF → ∀ a ∈ as.list, a.ty.EncLaws
  | .nil, _ => by intro c hc; cases hc
  | .cons l t rest, h => by
    intro c hc
    rcases List.mem_cons.mp hc with rfl | hc
    · exact t.encLaws h.1
    · exact rest.encLaws h.2 c hc
end

end FastBer
