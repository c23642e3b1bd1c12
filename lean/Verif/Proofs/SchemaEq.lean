import Verif.Proofs.SchemaSafeSet
/-! # `operator==` of generated types -/
namespace FastBer
open Spec

/-- `operator==` decides equality of the values held. -/
def Ty.EqLaw (t : Ty) : Prop :=
  ∀ {a b x y e f}, t.Rep a x e → t.Rep b y f → ∃ r, t.codec.eq a b = .ok r ∧ (r = true ↔ t.Same x y)

theorem small_value {id : Ident} (hid : identOk id) {c d : Bytes} (hw : SmallWf id 8 c d) :
    Integer.value id d = .ok (twosComplement c) := by
  rw [Integer.value, hw.content hid (by omega), Exec.ok_bind, decodeInteger_eq]
  split
  · rfl
  · have := hw.1
    obtain rfl : c = [] := List.length_eq_zero_iff.mp (by omega)
    rfl

theorem leaf_eq (k : Leaf) (id : Ident) (hid : identOk id) (hk : leafCmpTotal k) : (Ty.leaf k id).EqLaw := by
  intro a b x y e f ha hb
  have cont : ∀ {a b x y e f}, contRep id a x e → contRep id b y f →
      ∃ r, (strCodec id).eq a b = .ok r ∧ (r = true ↔ leafSame .str x y) := by
    intro a b x y e f ha hb
    obtain ⟨c, rfl, hw, rfl, rfl⟩ := contRep_iff.mp ha
    obtain ⟨c', rfl, hw', rfl, rfl⟩ := contRep_iff.mp hb
    exact ⟨_, by simp only [strCodec, Cont.eq, hw.content, hw'.content, Exec.ok_bind]; rfl, by simp [leafSame]⟩
  cases k with
  | int =>
    obtain ⟨c, d, rfl, rfl, hw, rfl⟩ := smallRep_iff.mp (show smallRep 8 id a x e from ha)
    obtain ⟨c', d', rfl, rfl, hw', rfl⟩ := smallRep_iff.mp (show smallRep 8 id b y f from hb)
    exact ⟨_, by simp only [Ty.codec, Leaf.codec, intCodec, small_value hid hw, small_value hid hw', Exec.ok_bind]; rfl,
      by simp [Ty.Same, leafSame]⟩
  | enum =>
    obtain ⟨c, d, rfl, rfl, hw, rfl⟩ := smallRep_iff.mp (show smallRep 8 id a x e from ha)
    obtain ⟨c', d', rfl, rfl, hw', rfl⟩ := smallRep_iff.mp (show smallRep 8 id b y f from hb)
    exact ⟨_, by simp only [Ty.codec, Leaf.codec, enumCodec, Enumerated.value, small_value hid hw, small_value hid hw', Exec.ok_bind]; rfl,
      by simp [Ty.Same, leafSame]⟩
  | bool =>
    obtain ⟨p, rfl, rfl, rfl⟩ := ha
    obtain ⟨q, rfl, rfl, rfl⟩ := hb
    refine ⟨_, by simp only [Ty.codec, Leaf.codec, boolCodec, Boolean.value, getLastD_tagged]; rfl, ?_⟩
    simp only [Ty.Same, leafSame, List.cons.injEq, and_true, beq_iff_eq]
    by_cases hp : p = 0 <;> by_cases hq : q = 0 <;> simp [hp, hq]
    rw [show (p != 0) = true by simpa using hp, show (q != 0) = true by simpa using hq]
  | null =>
    obtain ⟨rfl, rfl, rfl⟩ := ha
    obtain ⟨rfl, rfl, rfl⟩ := hb
    exact ⟨true, rfl, by simp [Ty.Same, leafSame]⟩
  | str => exact cont ha hb
  | oid => exact cont ha hb
  | real cmp =>
    obtain ⟨c, d, rfl, rfl, hw, rfl⟩ := smallRep_iff.mp (show smallRep 100 id a x e from ha)
    obtain ⟨c', d', rfl, rfl, hw', rfl⟩ := smallRep_iff.mp (show smallRep 100 id b y f from hb)
    obtain ⟨r, hr⟩ := hk c c'
    refine ⟨r, ?_, by simp [Ty.Same, leafSame, hr]⟩
    simp only [Ty.codec, Leaf.codec, realCodec, hw.content hid (by omega), hw'.content hid (by omega), Exec.ok_bind, hr]
  | time cmp =>
    obtain ⟨c, rfl, hw, rfl, rfl⟩ := contRep_iff.mp (show contRep id a x e from ha)
    obtain ⟨c', rfl, hw', rfl, rfl⟩ := contRep_iff.mp (show contRep id b y f from hb)
    obtain ⟨r, hr⟩ := hk (c.data.drop (c.data.length - c.len)) (c'.data.drop (c'.data.length - c'.len))
    refine ⟨r, ?_, by simp [Ty.Same, leafSame, hr]⟩
    simp only [Ty.codec, Leaf.codec, timeCodec, hw.content, hw'.content, Exec.ok_bind, hr]

theorem eqList_law {t : Ty} (ht : t.EqLaw) {as bs : List Obj} {xs ys : List Val} {es fs : List Bytes}
    (ha : all3 t.Rep as xs es) (hb : all3 t.Rep bs ys fs) :
    ∃ r, eqList t.codec.eq as bs = .ok r ∧ (r = true ↔ all2 t.Same xs ys) := by
  induction as generalizing bs xs ys es fs with
  | nil =>
    obtain ⟨rfl, rfl⟩ := all3_nil.mp ha
    cases bs with
    | nil => obtain ⟨rfl, rfl⟩ := all3_nil.mp hb; exact ⟨true, rfl, by simp [all2]⟩
    | cons b bs =>
      obtain ⟨y, ys, f, fs, rfl, rfl, _⟩ := all3_cons.mp hb
      exact ⟨false, rfl, by simp [all2]⟩
  | cons a as ih =>
    obtain ⟨x, xs, e, es, rfl, rfl, h1, h2⟩ := all3_cons.mp ha
    cases bs with
    | nil => obtain ⟨rfl, rfl⟩ := all3_nil.mp hb; exact ⟨false, rfl, by simp [all2]⟩
    | cons b bs =>
      obtain ⟨y, ys, f, fs, rfl, rfl, h3, h4⟩ := all3_cons.mp hb
      obtain ⟨r, hr, hs⟩ := ht h1 h3
      obtain ⟨r', hr', hs'⟩ := ih h2 h4
      cases r with
      | false =>
        refine ⟨false, by simp [eqList, hr], ?_⟩
        simp only [Bool.false_eq_true, false_iff] at hs
        simp [all2, hs]
      | true =>
        simp only [true_iff] at hs
        exact ⟨r', by simp [eqList, hr, hr'], by simp [all2, hs, hs']⟩

theorem seqOf_eq (id : Ident) (t : Ty) (ht : t.EqLaw) : (Ty.seqOf id t).EqLaw := by
  rintro a b x y e f ⟨as, xs, es, rfl, rfl, rfl, ha⟩ ⟨bs, ys, fs, rfl, rfl, rfl, hb⟩
  by_cases hl : as.length = bs.length
  · obtain ⟨r, h1, h2⟩ := eqList_law ht ha hb
    exact ⟨r, by simp [Ty.codec, seqOfCodec, hl, h1], by simpa [Ty.Same] using h2⟩
  · refine ⟨false, by simp [Ty.codec, seqOfCodec, hl], ?_⟩
    simp only [Bool.false_eq_true, false_iff, Ty.Same]
    intro hall
    have hlen : ∀ {l : List Val} {m : List Val}, all2 t.Same l m → l.length = m.length := by
      intro l
      induction l with
      | nil => intro m h; cases m with
        | nil => rfl
        | cons => exact h.elim
      | cons p l ih => intro m h; cases m with
        | nil => exact h.elim
        | cons q m => simp [ih h.2]
    have := hlen hall
    have h1 := (all3_length ha).1
    have h2 := (all3_length hb).1
    omega

/-- The object a component stands for when it may be absent. -/
def orDefault (d : Obj) : Obj → Obj
  | .some o => o
  | _ => d

theorem Comp.field_eq (c : Comp) (a b : Obj) : c.field.eq a b = (match c.kind with
    | .mandatory => c.ty.codec.eq a b
    | .optional =>
      match a, b with
      | .none, .none => .ok true
      | .some a, .some b => c.ty.codec.eq a b
      | _, _ => .ok false
    | .default d => c.ty.codec.eq (orDefault d a) (orDefault d b)) := by
  unfold Comp.field
  cases c.kind <;> first | rfl | (cases a <;> cases b <;> rfl)

/-- A component that is absent stands for its default. -/
theorem comp_eq {c : Comp} (ht : c.ty.EncLaws) (he : c.ty.EqLaw) (hd : ∀ d, c.kind = .default d → c.ty.Holds d)
    {a b : Obj} {x y : Val} {e f : Bytes} (ha : c.Rep a x e) (hb : c.Rep b y f) :
    ∃ r, c.field.eq a b = .ok r ∧ (r = true ↔ compSame c.ty.Rep c.ty.Same c.kind x y) := by
  rw [Comp.field_eq]
  cases hk : c.kind with
  | mandatory =>
    have ha' : c.ty.Rep a x e := by simpa [Comp.Rep, compRep, hk] using ha
    have hb' : c.ty.Rep b y f := by simpa [Comp.Rep, compRep, hk] using hb
    exact he ha' hb'
  | optional =>
    have hkn : c.kind ≠ .mandatory := by rw [hk]; exact fun h => nomatch h
    rcases comp_cases ha with ⟨h, _⟩ | ⟨_, rfl, rfl, rfl⟩ | ⟨_, a', x', rfl, rfl, ha'⟩
    · exact (hkn h).elim
    · rcases comp_cases hb with ⟨h, _⟩ | ⟨_, rfl, rfl, rfl⟩ | ⟨_, b', y', rfl, rfl, hb'⟩
      · exact (hkn h).elim
      · exact ⟨true, rfl, by simp [compSame]⟩
      · exact ⟨false, rfl, by simp [compSame]⟩
    · rcases comp_cases hb with ⟨h, _⟩ | ⟨_, rfl, rfl, rfl⟩ | ⟨_, b', y', rfl, rfl, hb'⟩
      · exact (hkn h).elim
      · exact ⟨false, rfl, by simp [compSame]⟩
      · exact he ha' hb'
  | default d =>
    have hkn : c.kind ≠ .mandatory := by rw [hk]; exact fun h => nomatch h
    have get : ∀ {a : Obj} {x : Val} {e : Bytes}, c.Rep a x e → ∃ z g,
        c.ty.Rep (orDefault d a) z g ∧
        ∀ z', defaultOr c.ty.Rep d x z' ↔ z' = z := by
      intro a x e ha
      rcases comp_cases ha with ⟨h, _⟩ | ⟨_, rfl, rfl, rfl⟩ | ⟨_, a', x', rfl, rfl, ha'⟩
      · exact (hkn h).elim
      · obtain ⟨z, g, hz⟩ := hd d hk
        refine ⟨z, g, hz, fun z' => ?_⟩
        simp only [defaultOr]
        constructor
        · rintro ⟨g', h⟩; exact (ht.unique h hz).1
        · rintro rfl; exact ⟨g, hz⟩
      · exact ⟨x', e, ha', fun z' => by simp [defaultOr]⟩
    obtain ⟨z, g, h1, h2⟩ := get ha
    obtain ⟨z', g', h3, h4⟩ := get hb
    obtain ⟨r, h5, h6⟩ := he h1 h3
    refine ⟨r, h5, ?_⟩
    rw [h6]
    simp only [compSame, h2, h4]
    constructor
    · intro h; exact ⟨z, z', rfl, rfl, h⟩
    · rintro ⟨_, _, rfl, rfl, h⟩; exact h

def compsSame : List Comp → List Val → List Val → Prop
  | [], xs, ys => xs = [] ∧ ys = []
  | c :: cs, x :: xs, y :: ys => compSame c.ty.Rep c.ty.Same c.kind x y ∧ compsSame cs xs ys
  | _, _, _ => False

theorem Fields.same_iff : (fs : Fields) → (xs ys : List Val) → (fs.Same xs ys ↔ compsSame fs.comps xs ys)
  | .nil, xs, ys => Iff.rfl
  | .cons k l t rest, [], ys => by simp [Fields.Same, Fields.comps, compsSame]
  | .cons k l t rest, x :: xs, [] => by simp [Fields.Same, Fields.comps, compsSame]
  | .cons k l t rest, x :: xs, y :: ys => by
    simp only [Fields.Same, Fields.comps, compsSame, Fields.same_iff rest]

theorem eqFields_law {cs : List Comp} (ht : ∀ c ∈ cs, c.ty.EncLaws) (he : ∀ c ∈ cs, c.ty.EqLaw)
    (hd : ∀ c ∈ cs, ∀ d, c.kind = .default d → c.ty.Holds d) {as bs : List Obj} {xs ys : List Val} {es fs : List Bytes}
    (ha : compsRep cs as xs es) (hb : compsRep cs bs ys fs) :
    ∃ r, eqFields (cs.map Comp.field) as bs = .ok r ∧ (r = true ↔ compsSame cs xs ys) := by
  induction cs generalizing as bs xs ys es fs with
  | nil =>
    obtain ⟨rfl, rfl, rfl⟩ := compsRep_nil.mp ha
    obtain ⟨rfl, rfl, rfl⟩ := compsRep_nil.mp hb
    exact ⟨true, rfl, by simp [compsSame]⟩
  | cons c cs ih =>
    obtain ⟨a, as, x, xs, e, es, rfl, rfl, rfl, h1, h2⟩ := compsRep_cons.mp ha
    obtain ⟨b, bs, y, ys, f, fs, rfl, rfl, rfl, h3, h4⟩ := compsRep_cons.mp hb
    obtain ⟨r, hr, hs⟩ := comp_eq (ht c (by simp)) (he c (by simp)) (hd c (by simp)) h1 h3
    obtain ⟨r', hr', hs'⟩ := ih (fun c hc => ht c (by simp [hc])) (fun c hc => he c (by simp [hc]))
      (fun c hc => hd c (by simp [hc])) h2 h4
    cases r with
    | false =>
      refine ⟨false, by simp [eqFields, hr], ?_⟩
      simp only [Bool.false_eq_true, false_iff] at hs
      simp [compsSame, hs]
    | true =>
      simp only [true_iff] at hs
      exact ⟨r', by simp [eqFields, hr, hr'], by simp [compsSame, hs, hs']⟩

theorem Fields.wf_default : (fs : Fields) → fs.WF → ∀ c ∈ fs.comps, ∀ d, c.kind = .default d → c.ty.Holds d
  | .nil, _, c, hc => by cases hc
  | .cons k l t rest, h, c, hc => by
    intro d hk
    rcases List.mem_cons.mp hc with rfl | hc
    · simp only at hk; subst hk; exact h.2.1
    · exact rest.wf_default h.2.2 c hc d hk

theorem Alts.same_iff : (as : Alts) → (i : Nat) → (x y : Val) → (as.Same i x y ↔ ∃ a, as.list[i]? = some a ∧ a.ty.Same x y)
  | .nil, i, x, y => by simp [Alts.Same, Alts.list]
  | .cons l t rest, 0, x, y => by simp [Alts.Same, Alts.list]
  | .cons l t rest, i + 1, x, y => by simp [Alts.Same, Alts.list, Alts.same_iff rest]

theorem choice_eq (cid : ChoiceIdent) (as : Alts) (he : ∀ a ∈ as.list, a.ty.EqLaw) : (Ty.choice cid as).EqLaw := by
  rintro a b x y e f ⟨i, a', x', e', rfl, rfl, ha, _⟩ ⟨j, b', y', f', rfl, rfl, hb, _⟩
  by_cases hij : i = j
  · subst hij
    obtain ⟨p, hp, h1⟩ := (as.rep_iff _ _ _ _).mp ha
    obtain ⟨q, hq, h2⟩ := (as.rep_iff _ _ _ _).mp hb
    rw [hp] at hq
    simp only [Option.some.injEq] at hq
    subst hq
    obtain ⟨r, h3, h4⟩ := he p (List.mem_of_getElem? hp) h1 h2
    refine ⟨r, ?_, ?_⟩
    · simp only [Ty.codec, choiceCodec, if_true, Alts.getElem_alts, hp]
      exact h3
    · rw [h4]
      simp [Ty.Same, Alts.same_iff, hp]
  · exact ⟨false, by simp [Ty.codec, choiceCodec, hij], by simp [Ty.Same, hij]⟩

mutual
theorem Ty.eqLaw : (t : Ty) → t.WF → t.Leaves leafCmpTotal → t.EqLaw
  | .leaf k id, h, hl => leaf_eq k id h hl
  | .seqOf id t, h, hl => seqOf_eq id t (t.eqLaw h.2 hl)
  | .seq id fs, h, hl => by
    rintro ⟨as, xs, es, rfl, rfl, rfl, ha⟩ ⟨bs, ys, es', rfl, rfl, rfl, hb⟩
    obtain ⟨r, h1, h2⟩ := eqFields_law (fs.encLaws h.2) (fs.eqLaw h.2 hl) (fs.wf_default h.2)
      ((fs.rep_iff _ _ _).mp ha) ((fs.rep_iff _ _ _).mp hb)
    rw [← Fields.fields_eq] at h1
    exact ⟨r, h1, h2.trans (fs.same_iff _ _).symm⟩
  | .set id ext fs, h, hl => by
    rintro ⟨as, xs, es, rfl, rfl, rfl, ha⟩ ⟨bs, ys, es', rfl, rfl, rfl, hb⟩
    obtain ⟨r, h1, h2⟩ := eqFields_law (fs.encLaws h.2) (fs.eqLaw h.2 hl) (fs.wf_default h.2)
      ((fs.rep_iff _ _ _).mp ha) ((fs.rep_iff _ _ _).mp hb)
    rw [← Fields.fields_eq] at h1
    exact ⟨r, h1, h2.trans (fs.same_iff _ _).symm⟩
  | .choice (.untagged _) as, h, hl => choice_eq _ as (as.eqLaw h.2.1 hl)
  | .choice (.tagged _) as, h, hl => choice_eq _ as (as.eqLaw h.2.1 hl)
theorem Fields.eqLaw : (fs : Fields) → fs.WF → fs.Leaves leafCmpTotal → ∀ c ∈ fs.comps, c.ty.EqLaw
  | .nil, _, _ => by intro c hc; cases hc
  | .cons k l t rest, h, hl => by
    intro c hc
    rcases List.mem_cons.mp hc with rfl | hc
    · exact t.eqLaw h.1 hl.1
    · exact rest.eqLaw h.2.2 hl.2 c hc
theorem Alts.eqLaw : (as : Alts) → as.WF → as.Leaves leafCmpTotal → ∀ a ∈ as.list, a.ty.EqLaw
  | .nil, _, _ => by intro c hc; cases hc
  | .cons l t rest, h, hl => by
    intro c hc
    rcases List.mem_cons.mp hc with rfl | hc
    · exact t.eqLaw h.1 hl.1
    · exact rest.eqLaw h.2 hl.2 c hc
end

/-! ## Without assuming that comparisons of REALs and times finish -/

/-- `operator==` says yes exactly for equal values. -/
def Ty.EqIff (t : Ty) : Prop :=
  ∀ {a b x y e f}, t.Rep a x e → t.Rep b y f → (t.codec.eq a b = .ok true ↔ t.Same x y)

theorem Ty.EqLaw.iff {t : Ty} (h : t.EqLaw) : t.EqIff := by
  intro a b x y e f ha hb
  obtain ⟨r, h1, h2⟩ := h ha hb
  rw [h1, ← h2]
  simp

theorem leaf_eq_iff (k : Leaf) (id : Ident) (hid : identOk id) : (Ty.leaf k id).EqIff := by
  cases k with
  | int => exact Ty.EqLaw.iff (leaf_eq .int id hid trivial)
  | enum => exact Ty.EqLaw.iff (leaf_eq .enum id hid trivial)
  | bool => exact Ty.EqLaw.iff (leaf_eq .bool id hid trivial)
  | null => exact Ty.EqLaw.iff (leaf_eq .null id hid trivial)
  | str => exact Ty.EqLaw.iff (leaf_eq .str id hid trivial)
  | oid => exact Ty.EqLaw.iff (leaf_eq .oid id hid trivial)
  | real cmp =>
    intro a b x y e f ha hb
    obtain ⟨c, d, rfl, rfl, hw, rfl⟩ := smallRep_iff.mp (show smallRep 100 id a x e from ha)
    obtain ⟨c', d', rfl, rfl, hw', rfl⟩ := smallRep_iff.mp (show smallRep 100 id b y f from hb)
    simp only [Ty.codec, Leaf.codec, realCodec, hw.content hid (by omega), hw'.content hid (by omega), Exec.ok_bind, Ty.Same, leafSame]
  | time cmp =>
    intro a b x y e f ha hb
    obtain ⟨c, rfl, hw, rfl, rfl⟩ := contRep_iff.mp (show contRep id a x e from ha)
    obtain ⟨c', rfl, hw', rfl, rfl⟩ := contRep_iff.mp (show contRep id b y f from hb)
    simp only [Ty.codec, Leaf.codec, timeCodec, hw.content, hw'.content, Exec.ok_bind, Ty.Same, leafSame]

theorem and_then_true {e : Exec Bool} {g : Exec Bool} : (e >>= fun r => if !r then .ok false else g) = .ok true ↔ e = .ok true ∧ g = .ok true := by
  cases e with
  | ok r => cases r <;> simp
  | ub => simp
  | loop => simp

theorem eqList_iff {t : Ty} (ht : t.EqIff) {as bs : List Obj} {xs ys : List Val} {es fs : List Bytes}
    (ha : all3 t.Rep as xs es) (hb : all3 t.Rep bs ys fs) : eqList t.codec.eq as bs = .ok true ↔ all2 t.Same xs ys := by
  induction as generalizing bs xs ys es fs with
  | nil =>
    obtain ⟨rfl, rfl⟩ := all3_nil.mp ha
    cases bs with
    | nil => obtain ⟨rfl, rfl⟩ := all3_nil.mp hb; simp [all2, eqList]
    | cons b bs =>
      obtain ⟨y, ys, f, fs, rfl, rfl, _⟩ := all3_cons.mp hb
      simp [all2, eqList]
  | cons a as ih =>
    obtain ⟨x, xs, e, es, rfl, rfl, h1, h2⟩ := all3_cons.mp ha
    cases bs with
    | nil => obtain ⟨rfl, rfl⟩ := all3_nil.mp hb; simp [all2, eqList]
    | cons b bs =>
      obtain ⟨y, ys, f, fs, rfl, rfl, h3, h4⟩ := all3_cons.mp hb
      rw [eqList, and_then_true, ht h1 h3, ih h2 h4, all2]

theorem seqOf_eq_iff (id : Ident) (t : Ty) (ht : t.EqIff) : (Ty.seqOf id t).EqIff := by
  rintro a b x y e f ⟨as, xs, es, rfl, rfl, rfl, ha⟩ ⟨bs, ys, fs, rfl, rfl, rfl, hb⟩
  have hlen : ∀ {l : List Val} {m : List Val}, all2 t.Same l m → l.length = m.length := by
    intro l
    induction l with
    | nil => intro m h; cases m with
      | nil => rfl
      | cons => exact h.elim
    | cons p l ih => intro m h; cases m with
      | nil => exact h.elim
      | cons q m => simp [ih h.2]
  by_cases hl : as.length = bs.length
  · simpa [Ty.codec, seqOfCodec, hl, Ty.Same] using eqList_iff ht ha hb
  · refine ⟨fun h => by simp [Ty.codec, seqOfCodec, hl] at h, fun hall => ?_⟩
    have := hlen hall
    have h1 := (all3_length ha).1
    have h2 := (all3_length hb).1
    omega

theorem comp_eq_iff {c : Comp} (ht : c.ty.EncLaws) (he : c.ty.EqIff) (hd : ∀ d, c.kind = .default d → c.ty.Holds d)
    {a b : Obj} {x y : Val} {e f : Bytes} (ha : c.Rep a x e) (hb : c.Rep b y f) :
    c.field.eq a b = .ok true ↔ compSame c.ty.Rep c.ty.Same c.kind x y := by
  rw [Comp.field_eq]
  cases hk : c.kind with
  | mandatory =>
    have ha' : c.ty.Rep a x e := by simpa [Comp.Rep, compRep, hk] using ha
    have hb' : c.ty.Rep b y f := by simpa [Comp.Rep, compRep, hk] using hb
    exact he ha' hb'
  | optional =>
    have hkn : c.kind ≠ .mandatory := by rw [hk]; exact fun h => nomatch h
    rcases comp_cases ha with ⟨h, _⟩ | ⟨_, rfl, rfl, rfl⟩ | ⟨_, a', x', rfl, rfl, ha'⟩
    · exact (hkn h).elim
    · rcases comp_cases hb with ⟨h, _⟩ | ⟨_, rfl, rfl, rfl⟩ | ⟨_, b', y', rfl, rfl, hb'⟩
      · exact (hkn h).elim
      · simp [compSame]
      · simp [compSame]
    · rcases comp_cases hb with ⟨h, _⟩ | ⟨_, rfl, rfl, rfl⟩ | ⟨_, b', y', rfl, rfl, hb'⟩
      · exact (hkn h).elim
      · simp [compSame]
      · exact he ha' hb'
  | default d =>
    have hkn : c.kind ≠ .mandatory := by rw [hk]; exact fun h => nomatch h
    have get : ∀ {a : Obj} {x : Val} {e : Bytes}, c.Rep a x e → ∃ z g,
        c.ty.Rep (orDefault d a) z g ∧
        ∀ z', defaultOr c.ty.Rep d x z' ↔ z' = z := by
      intro a x e ha
      rcases comp_cases ha with ⟨h, _⟩ | ⟨_, rfl, rfl, rfl⟩ | ⟨_, a', x', rfl, rfl, ha'⟩
      · exact (hkn h).elim
      · obtain ⟨z, g, hz⟩ := hd d hk
        refine ⟨z, g, hz, fun z' => ?_⟩
        simp only [defaultOr]
        constructor
        · rintro ⟨g', h⟩; exact (ht.unique h hz).1
        · rintro rfl; exact ⟨g, hz⟩
      · exact ⟨x', e, ha', fun z' => by simp [defaultOr]⟩
    obtain ⟨z, g, h1, h2⟩ := get ha
    obtain ⟨z', g', h3, h4⟩ := get hb
    rw [he h1 h3]
    simp only [compSame, h2, h4]
    constructor
    · intro h; exact ⟨z, z', rfl, rfl, h⟩
    · rintro ⟨_, _, rfl, rfl, h⟩; exact h

theorem eqFields_iff {cs : List Comp} (ht : ∀ c ∈ cs, c.ty.EncLaws) (he : ∀ c ∈ cs, c.ty.EqIff)
    (hd : ∀ c ∈ cs, ∀ d, c.kind = .default d → c.ty.Holds d) {as bs : List Obj} {xs ys : List Val} {es fs : List Bytes}
    (ha : compsRep cs as xs es) (hb : compsRep cs bs ys fs) : eqFields (cs.map Comp.field) as bs = .ok true ↔ compsSame cs xs ys := by
  induction cs generalizing as bs xs ys es fs with
  | nil =>
    obtain ⟨rfl, rfl, rfl⟩ := compsRep_nil.mp ha
    obtain ⟨rfl, rfl, rfl⟩ := compsRep_nil.mp hb
    simp [compsSame, eqFields]
  | cons c cs ih =>
    obtain ⟨a, as, x, xs, e, es, rfl, rfl, rfl, h1, h2⟩ := compsRep_cons.mp ha
    obtain ⟨b, bs, y, ys, f, fs, rfl, rfl, rfl, h3, h4⟩ := compsRep_cons.mp hb
    rw [List.map_cons, eqFields, and_then_true, comp_eq_iff (ht c (by simp)) (he c (by simp)) (hd c (by simp)) h1 h3,
      ih (fun c hc => ht c (by simp [hc])) (fun c hc => he c (by simp [hc])) (fun c hc => hd c (by simp [hc])) h2 h4, compsSame]

theorem choice_eq_iff (cid : ChoiceIdent) (as : Alts) (he : ∀ a ∈ as.list, a.ty.EqIff) : (Ty.choice cid as).EqIff := by
  rintro a b x y e f ⟨i, a', x', e', rfl, rfl, ha, _⟩ ⟨j, b', y', f', rfl, rfl, hb, _⟩
  by_cases hij : i = j
  · subst hij
    obtain ⟨p, hp, h1⟩ := (as.rep_iff _ _ _ _).mp ha
    obtain ⟨q, hq, h2⟩ := (as.rep_iff _ _ _ _).mp hb
    rw [hp] at hq
    simp only [Option.some.injEq] at hq
    subst hq
    simp only [Ty.codec, choiceCodec, if_true, Alts.getElem_alts, hp]
    refine (he p (List.mem_of_getElem? hp) h1 h2).trans ?_
    simp [Ty.Same, Alts.same_iff, hp]
  · simp [Ty.codec, choiceCodec, hij, Ty.Same]

mutual
theorem Ty.eqIff : (t : Ty) → t.WF → t.EqIff
  | .leaf k id, h => leaf_eq_iff k id h
  | .seqOf id t, h => seqOf_eq_iff id t (t.eqIff h.2)
  | .seq id fs, h => by
    rintro ⟨as, xs, es, rfl, rfl, rfl, ha⟩ ⟨bs, ys, es', rfl, rfl, rfl, hb⟩
    have h1 := eqFields_iff (fs.encLaws h.2) (fs.eqIff h.2) (fs.wf_default h.2)
      ((fs.rep_iff _ _ _).mp ha) ((fs.rep_iff _ _ _).mp hb)
    rw [← Fields.fields_eq] at h1
    exact h1.trans (fs.same_iff _ _).symm
  | .set id ext fs, h => by
    rintro ⟨as, xs, es, rfl, rfl, rfl, ha⟩ ⟨bs, ys, es', rfl, rfl, rfl, hb⟩
    have h1 := eqFields_iff (fs.encLaws h.2) (fs.eqIff h.2) (fs.wf_default h.2)
      ((fs.rep_iff _ _ _).mp ha) ((fs.rep_iff _ _ _).mp hb)
    rw [← Fields.fields_eq] at h1
    exact h1.trans (fs.same_iff _ _).symm
  | .choice (.untagged _) as, h => choice_eq_iff _ as (as.eqIff h.2.1)
  | .choice (.tagged _) as, h => choice_eq_iff _ as (as.eqIff h.2.1)
theorem Fields.eqIff : (fs : Fields) → fs.WF → ∀ c ∈ fs.comps, c.ty.EqIff
  | .nil, _ => by intro c hc; cases hc
  | .cons k l t rest, h => by
    intro c hc
    rcases List.mem_cons.mp hc with rfl | hc
    · exact t.eqIff h.1
    · exact rest.eqIff h.2.2 c hc
theorem Alts.eqIff : (as : Alts) → as.WF → ∀ a ∈ as.list, a.ty.EqIff
  | .nil, _ => by intro c hc; cases hc
  | .cons l t rest, h => by
    intro c hc
    rcases List.mem_cons.mp hc with rfl | hc
    · exact t.eqIff h.1
    · exact rest.eqIff h.2 c hc
end

/-! ## A value equals itself -/

theorem leafSame_refl {k : Leaf} {id : Ident} {o : Obj} {x : Val} {e : Bytes} (h : leafRep k id o x e)
    (hk : leafCmpRefl k) : leafSame k x x := by
  cases k with
  | int => obtain ⟨c, _, rfl, _⟩ := h; rfl
  | enum => obtain ⟨c, _, rfl, _⟩ := h; rfl
  | bool => obtain ⟨c, rfl, _⟩ := h; exact Iff.rfl
  | null => obtain ⟨rfl, _⟩ := h; trivial
  | str => obtain ⟨_, _, _, _, _, _, _, rfl, _⟩ := h; rfl
  | oid => obtain ⟨_, _, _, _, _, _, _, rfl, _⟩ := h; rfl
  | real cmp => obtain ⟨c, _, rfl, _⟩ := h; exact hk c
  | time cmp => obtain ⟨_, _, _, _, _, _, _, rfl, _⟩ := h; exact hk _

mutual
theorem Ty.same_refl : (t : Ty) → t.WF → t.Leaves leafCmpRefl → ∀ o x e, t.Rep o x e → t.Same x x
  | .leaf k id, _, hl, o, x, e, h => leafSame_refl h hl
  | .seqOf id t, hw, hl, o, x, e, h => by
    obtain ⟨os, xs, es, rfl, rfl, rfl, h⟩ := h
    show all2 t.Same xs xs
    have ih := t.same_refl hw.2 hl
    clear hw
    induction os generalizing xs es with
    | nil => obtain ⟨rfl, rfl⟩ := all3_nil.mp h; trivial
    | cons o os ih2 =>
      obtain ⟨x, xs, e, es, rfl, rfl, h1, h2⟩ := all3_cons.mp h
      exact ⟨ih o x e h1, ih2 xs es h2⟩
  | .seq id fs, hw, hl, o, x, e, h => by
    obtain ⟨os, xs, es, rfl, rfl, rfl, h⟩ := h
    exact fs.same_refl hw.2 hl os xs es h
  | .set id ext fs, hw, hl, o, x, e, h => by
    obtain ⟨os, xs, es, rfl, rfl, rfl, h⟩ := h
    exact fs.same_refl hw.2 hl os xs es h
  | .choice (.untagged _) as, hw, hl, o, x, e, h => by
    obtain ⟨i, o', x', e', rfl, rfl, h, _⟩ := h
    exact ⟨rfl, as.same_refl hw.2.1 hl i o' x' e' h⟩
  | .choice (.tagged _) as, hw, hl, o, x, e, h => by
    obtain ⟨i, o', x', e', rfl, rfl, h, _⟩ := h
    exact ⟨rfl, as.same_refl hw.2.1 hl i o' x' e' h⟩
theorem Fields.same_refl : (fs : Fields) → fs.WF → fs.Leaves leafCmpRefl → ∀ os xs es, fs.Rep os xs es → fs.Same xs xs
  | .nil, _, _, os, xs, es, h => by obtain ⟨_, rfl, _⟩ := h; exact ⟨rfl, rfl⟩
  | .cons k l t rest, hw, hl, os, xs, es, h => by
    obtain ⟨o, os, x, xs, e, es, rfl, rfl, rfl, h1, h2⟩ := h
    refine ⟨?_, rest.same_refl hw.2.2 hl.2 os xs es h2⟩
    have ih := t.same_refl hw.1 hl.1
    cases k with
    | mandatory => exact ih o x e h1
    | optional =>
      rcases h1 with ⟨_, rfl, _⟩ | ⟨o', x', _, rfl, h1⟩
      · trivial
      · exact ih o' x' e h1
    | default d =>
      rcases h1 with ⟨_, rfl, _⟩ | ⟨o', x', _, rfl, h1⟩
      · obtain ⟨z, g, hz⟩ := hw.2.1
        exact ⟨z, z, ⟨g, hz⟩, ⟨g, hz⟩, ih d z g hz⟩
      · exact ⟨x', x', rfl, rfl, ih o' x' e h1⟩
theorem Alts.same_refl : (as : Alts) → as.WF → as.Leaves leafCmpRefl → ∀ i o x e, as.Rep i o x e → as.Same i x x
  | .nil, _, _, i, o, x, e, h => by simp [Alts.Rep] at h
  | .cons l t rest, hw, hl, 0, o, x, e, h => t.same_refl hw.1 hl.1 o x e h
  | .cons l t rest, hw, hl, i + 1, o, x, e, h => rest.same_refl hw.2 hl.2 i o x e h
end

end FastBer
