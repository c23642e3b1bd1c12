import Verif.Model.Api
import Verif.Proofs.SchemaEq
import Verif.Proofs.SchemaInj
/-! # Facts used by the theorems about generated types -/
namespace FastBer
open Spec

theorem Ty.Fits.holds {t : Ty} {o : Obj} (h : t.Fits o) : t.Holds o := by
  obtain ⟨x, e, h, _⟩ := h; exact ⟨x, e, h⟩

/-- Parsing does not depend on the tag left over from before. -/
theorem parse_append {e s : Bytes} {v : BerView} (h : BerView.parse e = .ok v) (hv : v.valid = true) :
    BerView.parse (e ++ s) = .ok { v with mem := e ++ s } := assign_append h hv s 0

/-! ## A successful decode has seen the right header, on any input whatever -/

theorem small_header {id : Ident} {max : Nat} {d : Bytes} {v : BerView} {d' : Bytes}
    (h : Small.decode id max d v = .ok (true, d')) : hasCorrectHeader v id .primitive = .ok true := by
  unfold Small.decode at h
  cases hh : hasCorrectHeader v id .primitive with
  | ub => rw [hh] at h; cases h
  | loop => rw [hh] at h; cases h
  | ok b => cases b with
    | true => rfl
    | false => rw [hh] at h; simp at h

theorem cont_header {id : Ident} {c : Cont} {v : BerView} {c' : Cont}
    (h : Cont.decode id c v = .ok (true, c')) : hasCorrectHeader v id .primitive = .ok true := by
  unfold Cont.decode at h
  cases hh : hasCorrectHeader v id .primitive with
  | ub => rw [hh] at h; cases h
  | loop => rw [hh] at h; cases h
  | ok b => cases b with
    | true => rfl
    | false =>
      rw [hh] at h
      simp only [Exec.ok_bind, Bool.not_false, if_true] at h
      cases hd : Cont.decodeError v id with
      | ub => rw [hd] at h; cases h
      | loop => rw [hd] at h; cases h
      | ok u => rw [hd] at h; simp at h

theorem onRaw_true {f : Bytes → Exec (Bool × Bytes)} {o o' : Obj} (h : onRaw f o = .ok (true, o')) :
    ∃ d d', f d = .ok (true, d') := by
  cases o with
  | raw d =>
    simp only [onRaw] at h
    cases hf : f d with
    | ok r => rw [hf] at h; simp only [Exec.ok_bind, Exec.ok.injEq, Prod.mk.injEq] at h; exact ⟨d, r.2, by rw [hf, ← h.1]⟩
    | ub => rw [hf] at h; cases h
    | loop => rw [hf] at h; cases h
  | _ => cases h

theorem onCont_true {f : Cont → Exec (Bool × Cont)} {o o' : Obj} (h : onCont f o = .ok (true, o')) :
    ∃ d d', f d = .ok (true, d') := by
  cases o with
  | cont d =>
    simp only [onCont] at h
    cases hf : f d with
    | ok r => rw [hf] at h; simp only [Exec.ok_bind, Exec.ok.injEq, Prod.mk.injEq] at h; exact ⟨d, r.2, by rw [hf, ← h.1]⟩
    | ub => rw [hf] at h; cases h
    | loop => rw [hf] at h; cases h
  | _ => cases h

theorem coll_header {id : Ident} {fs : List Field} {body : List Obj → Iter → Exec (Bool × List Obj)} {os : List Obj}
    {v : BerView} {o' : Obj} (h : decodeCollection id fs body os v = .ok (true, o')) :
    hasCorrectHeader v id .constructed = .ok true := by
  unfold decodeCollection at h
  cases hv : v.valid with
  | false => rw [hv] at h; simp at h
  | true =>
    rw [hv] at h
    cases hh : hasCorrectHeader v id .constructed with
    | ub => rw [hh] at h; cases h
    | loop => rw [hh] at h; cases h
    | ok b => cases b with
      | true => rfl
      | false =>
        rw [hh] at h
        cases hi : v.identifier with
        | ok i => rw [hi] at h; simp at h
        | ub => rw [hi] at h; cases h
        | loop => rw [hi] at h; cases h

theorem Ty.decode_header {t : Ty} {id : Ident} {k : Construction} (ht : t.header = some (id, k)) {o : Obj} {v : BerView}
    {o' : Obj} (h : t.codec.decode o v = .ok (true, o')) : hasCorrectHeader v id k = .ok true := by
  match t, ht with
  | .leaf lk id', ht =>
    simp only [Ty.header, Option.some.injEq, Prod.mk.injEq] at ht
    obtain ⟨rfl, rfl⟩ := ht
    cases lk with
    | int => obtain ⟨d, d', h⟩ := onRaw_true h; exact small_header h
    | enum => obtain ⟨d, d', h⟩ := onRaw_true h; exact small_header h
    | real _ => obtain ⟨d, d', h⟩ := onRaw_true h; exact small_header h
    | bool =>
      obtain ⟨d, d', h⟩ := onRaw_true h
      unfold Boolean.decode at h
      cases hh : hasCorrectHeader v id' .primitive with
      | ub => rw [hh] at h; cases h
      | loop => rw [hh] at h; cases h
      | ok b => cases b with
        | true => rfl
        | false => rw [hh] at h; simp at h
    | null =>
      obtain ⟨d, d', h⟩ := onRaw_true h
      unfold Null.decode at h
      cases hh : hasCorrectHeader v id' .primitive with
      | ub => rw [hh] at h; cases h
      | loop => rw [hh] at h; cases h
      | ok b => cases b with
        | true => rfl
        | false => rw [hh] at h; simp at h
    | str => obtain ⟨d, d', h⟩ := onCont_true h; exact cont_header h
    | oid => obtain ⟨d, d', h⟩ := onCont_true h; exact cont_header h
    | time _ =>
      obtain ⟨d, d', h⟩ := onCont_true h
      unfold timeDecode at h
      cases hd : Cont.decode id' d v with
      | ub => rw [hd] at h; cases h
      | loop => rw [hd] at h; cases h
      | ok r =>
        rw [hd] at h
        simp only [Exec.ok_bind] at h
        split at h
        · cases h
        · simp only [Exec.ok.injEq] at h
          subst h
          exact cont_header hd
  | .seqOf id' t, ht =>
    simp only [Ty.header, Option.some.injEq, Prod.mk.injEq] at ht
    obtain ⟨rfl, rfl⟩ := ht
    cases o with
    | list os =>
      simp only [Ty.codec, seqOfCodec] at h
      cases hh : hasCorrectHeader v id' .constructed with
      | ub => rw [hh] at h; cases h
      | loop => rw [hh] at h; cases h
      | ok b => cases b with
        | true => rfl
        | false => rw [hh] at h; simp at h
    | _ => cases h
  | .seq id' fs, ht =>
    simp only [Ty.header, Option.some.injEq, Prod.mk.injEq] at ht
    obtain ⟨rfl, rfl⟩ := ht
    cases o with
    | struct os => exact coll_header h
    | _ => cases h
  | .set id' ext fs, ht =>
    simp only [Ty.header, Option.some.injEq, Prod.mk.injEq] at ht
    obtain ⟨rfl, rfl⟩ := ht
    cases o with
    | struct os => exact coll_header h
    | _ => cases h
  | .choice (.tagged id') as, ht =>
    simp only [Ty.header, Option.some.injEq, Prod.mk.injEq] at ht
    obtain ⟨rfl, rfl⟩ := ht
    cases o with
    | alt j o =>
      simp only [Ty.codec, choiceCodec] at h
      cases hv : v.valid with
      | false => rw [hv] at h; simp at h
      | true =>
        rw [hv] at h
        cases hh : hasCorrectHeader v id' .constructed with
        | ub => rw [hh] at h; cases h
        | loop => rw [hh] at h; cases h
        | ok b => cases b with
          | true => rfl
          | false =>
            rw [hh] at h
            cases hi : v.identifier with
            | ok i => rw [hi] at h; simp at h
            | ub => rw [hi] at h; cases h
            | loop => rw [hi] at h; cases h
    | _ => cases h

/-- The encoding of a value carries the type's tag(s). -/
theorem Ty.rep_matches {t : Ty} (hw : t.WF) {id : Ident} {k : Construction} (ht : t.header = some (id, k)) {o : Obj} {x : Val}
    {e : Bytes} (hr : t.Rep o x e) (hl : e.length < 2 ^ 64) {v : BerView} (hv : BerView.parse e = .ok v) :
    ∃ w, Matches v id k w := by
  have key : identOk id → ∀ c, e = tagged id k c → ∃ w, Matches v id k w := by
    intro hid c he
    subst he
    obtain ⟨w, h, _⟩ := matches_tagged id hid k c [] hl
    have ha := assign_tagged id hid k c [] 0 hl
    rw [List.append_nil] at ha
    rw [BerView.parse, ha] at hv
    simp only [Exec.ok.injEq] at hv
    rw [← hv]
    exact ⟨w, h⟩
  match t, ht, hw with
  | .leaf lk id', ht, hw =>
    simp only [Ty.header, Option.some.injEq, Prod.mk.injEq] at ht
    obtain ⟨rfl, rfl⟩ := ht
    have small : ∀ m, smallRep m id' o x e → ∃ w, Matches v id' .primitive w := by
      rintro m ⟨c, _, _, _, _, he, _⟩; exact key hw c he
    have cont : contRep id' o x e → ∃ w, Matches v id' .primitive w := by
      rintro ⟨v', w, h1, _, _, h4, _⟩
      rw [hv] at h1
      simp only [Exec.ok.injEq] at h1
      subst h1
      exact ⟨w, h4⟩
    cases lk with
    | int => exact small _ hr
    | enum => exact small _ hr
    | real _ => exact small _ hr
    | bool => obtain ⟨b, _, he, _⟩ := hr; exact key hw _ he
    | null => obtain ⟨_, he, _⟩ := hr; exact key hw _ he
    | str => exact cont hr
    | oid => exact cont hr
    | time _ => exact cont hr
  | .seqOf id' t, ht, hw =>
    simp only [Ty.header, Option.some.injEq, Prod.mk.injEq] at ht
    obtain ⟨rfl, rfl⟩ := ht
    obtain ⟨_, _, _, _, _, he, _⟩ := hr
    exact key hw.1 _ he
  | .seq id' fs, ht, hw =>
    simp only [Ty.header, Option.some.injEq, Prod.mk.injEq] at ht
    obtain ⟨rfl, rfl⟩ := ht
    obtain ⟨_, _, _, _, _, he, _⟩ := hr
    exact key hw.1 _ he
  | .set id' ext fs, ht, hw =>
    simp only [Ty.header, Option.some.injEq, Prod.mk.injEq] at ht
    obtain ⟨rfl, rfl⟩ := ht
    obtain ⟨_, _, _, _, _, he, _⟩ := hr
    exact key hw.1 _ he
  | .choice (.tagged id') as, ht, hw =>
    simp only [Ty.header, Option.some.injEq, Prod.mk.injEq] at ht
    obtain ⟨rfl, rfl⟩ := ht
    obtain ⟨_, _, _, _, _, _, _, he⟩ := hr
    exact key hw.1 _ he

/-! ## Invalid views -/

/-- A type with a tag of its own rejects an invalid view. -/
theorem Ty.decode_invalid {t : Ty} {id : Ident} {k : Construction} (ht : t.header = some (id, k)) {o : Obj} (ho : t.Holds o)
    (n : Int) : ∃ o', t.codec.decode o (BerView.invalid n) = .ok (false, o') := by
  have hh : ∀ k, hasCorrectHeader (BerView.invalid n) id k = .ok false := by
    intro k; cases id <;> rfl
  have he : Cont.decodeError (BerView.invalid n) id = .ok () := by cases id <;> rfl
  obtain ⟨x, e, ho⟩ := ho
  match t, ht with
  | .leaf lk id', ht =>
    simp only [Ty.header, Option.some.injEq, Prod.mk.injEq] at ht
    obtain ⟨rfl, rfl⟩ := ht
    have small : ∀ m d, Small.decode id' m d (BerView.invalid n) = .ok (false, d) := by
      intro m d; simp [Small.decode, hh]
    have cont : ∀ c, Cont.decode id' c (BerView.invalid n) = .ok (false, c) := by
      intro c; simp [Cont.decode, hh, he]
    cases lk with
    | int => obtain ⟨c, j, _, _, _, _, rfl⟩ := ho; exact ⟨_, by simp [Ty.codec, Leaf.codec, intCodec, onRaw, Integer.decode, small]; rfl⟩
    | enum => obtain ⟨c, j, _, _, _, _, rfl⟩ := ho; exact ⟨_, by simp [Ty.codec, Leaf.codec, enumCodec, onRaw, Enumerated.decode, Integer.decode, small]; rfl⟩
    | real _ => obtain ⟨c, j, _, _, _, _, rfl⟩ := ho; exact ⟨_, by simp [Ty.codec, Leaf.codec, realCodec, onRaw, small]; rfl⟩
    | bool => obtain ⟨b, _, _, rfl⟩ := ho; exact ⟨_, by simp [Ty.codec, Leaf.codec, boolCodec, onRaw, Boolean.decode, hh]; rfl⟩
    | null => obtain ⟨_, _, rfl⟩ := ho; exact ⟨_, by simp [Ty.codec, Leaf.codec, nullCodec, onRaw, Null.decode, hh]; rfl⟩
    | str => obtain ⟨_, _, _, _, _, _, _, _, rfl⟩ := ho; exact ⟨_, by simp [Ty.codec, Leaf.codec, strCodec, onCont, cont]; rfl⟩
    | oid => obtain ⟨_, _, _, _, _, _, _, _, rfl⟩ := ho; exact ⟨_, by simp [Ty.codec, Leaf.codec, strCodec, onCont, cont]; rfl⟩
    | time _ =>
      obtain ⟨_, _, _, _, _, _, _, _, rfl⟩ := ho
      simp only [Ty.codec, Leaf.codec, timeCodec, onCont, timeDecode, cont, Exec.ok_bind]
      split <;> exact ⟨_, rfl⟩
  | .seqOf id' t, ht =>
    simp only [Ty.header, Option.some.injEq, Prod.mk.injEq] at ht
    obtain ⟨rfl, rfl⟩ := ht
    obtain ⟨_, _, _, rfl, _⟩ := ho
    exact ⟨_, by simp [Ty.codec, seqOfCodec, hh]; rfl⟩
  | .seq id' fs, ht =>
    obtain ⟨_, _, _, rfl, _⟩ := ho
    exact ⟨_, rfl⟩
  | .set id' ext fs, ht =>
    obtain ⟨_, _, _, rfl, _⟩ := ho
    exact ⟨_, rfl⟩
  | .choice (.tagged id') as, ht =>
    obtain ⟨_, _, _, _, rfl, _⟩ := ho
    exact ⟨_, rfl⟩

mutual
/-- No type accepts an invalid view. -/
theorem Ty.not_decode_invalid : (t : Ty) → (o : Obj) → (n : Int) → (o' : Obj) →
    t.codec.decode o (BerView.invalid n) ≠ .ok (true, o')
  | .choice (.untagged ids) as, o, n, o' => by
    intro h
    cases o with
    | alt j o =>
      simp only [Ty.codec, choiceCodec, decodeAlt] at h
      cases hf : findAlt (BerView.invalid n).tag as.alts with
      | none => rw [hf] at h; cases h
      | some i =>
        rw [hf] at h
        simp only [Alts.getElem_alts] at h
        cases ha : as.list[i]? with
        | none => rw [ha] at h; cases h
        | some a =>
          rw [ha] at h
          simp only [Option.map_some, AltC.alt] at h
          cases hi : a.ty.codec.init with
          | ub => rw [hi] at h; cases h
          | loop => rw [hi] at h; cases h
          | ok x =>
            rw [hi] at h
            cases hd : a.ty.codec.decode x (BerView.invalid n) with
            | ub => rw [Exec.ok_bind, hd] at h; cases h
            | loop => rw [Exec.ok_bind, hd] at h; cases h
            | ok r =>
              rw [Exec.ok_bind, hd] at h
              simp only [Exec.ok_bind, Exec.ok.injEq, Prod.mk.injEq] at h
              exact as.not_decode_invalid i a ha x n r.2 (by rw [hd, ← h.1])
    | _ => cases h
  | .leaf k id, o, n, o' => fun h => by
    have := Ty.decode_header (t := .leaf k id) rfl h
    cases id <;> cases this
  | .seqOf id t, o, n, o' => fun h => by
    have := Ty.decode_header (t := .seqOf id t) rfl h
    cases id <;> cases this
  | .seq id fs, o, n, o' => fun h => by
    have := Ty.decode_header (t := .seq id fs) rfl h
    cases id <;> cases this
  | .set id ext fs, o, n, o' => fun h => by
    have := Ty.decode_header (t := .set id ext fs) rfl h
    cases id <;> cases this
  | .choice (.tagged id) as, o, n, o' => fun h => by
    have := Ty.decode_header (t := .choice (.tagged id) as) rfl h
    cases id <;> cases this
theorem Alts.not_decode_invalid : (as : Alts) → (i : Nat) → (a : AltC) → as.list[i]? = some a → (o : Obj) → (n : Int) →
    (o' : Obj) → a.ty.codec.decode o (BerView.invalid n) ≠ .ok (true, o')
  | .nil, i, a, h, _, _, _ => by simp [Alts.list] at h
  | .cons l t rest, 0, a, h, o, n, o' => by
    simp only [Alts.list, List.getElem?_cons_zero, Option.some.injEq] at h
    subst h
    exact t.not_decode_invalid o n o'
  | .cons l t rest, i + 1, a, h, o, n, o' => by
    simp only [Alts.list, List.getElem?_cons_succ] at h
    exact rest.not_decode_invalid i a h o n o'
end

/-! ## Decoding sane bytes -/

theorem Ty.decode_law (t : Ty) (hw : t.WF) (hg : t.Guarded) {bs : Bytes} (hs : Sane bs)
    (hc : t.isUntaggedChoice → StartsElement bs) {o0 : Obj} (h0 : t.Holds o0) :
    ∃ v r o', BerView.parse bs = .ok v ∧ SaneView v ∧ t.decode o0 bs = .ok (r, o') ∧ t.Holds o' ∧
      (r = true → t.Accepted v o') ∧ (t.Unamb → (∃ x, t.Reads v x) → r = true) := by
  obtain ⟨v, hv, hsv, _⟩ := hs.assign 0
  obtain ⟨r, o', h1, h2, h3, h4⟩ := t.decLaw hw hg hsv ⟨bs, 0, hv⟩ (fun h => by
    obtain ⟨v', h1, h2⟩ := hc h
    rw [BerView.parse, hv] at h1
    simp only [Exec.ok.injEq] at h1
    rw [h1]; exact h2) h0
  exact ⟨v, r, o', hv, hsv, by simp only [Ty.decode, BerView.parse, hv, Exec.ok_bind, h1], h2, h3, h4⟩

theorem Elements.valid {bs : Bytes} {vs : List BerView} (h : Elements bs vs) : ∀ v ∈ vs, v.valid = true := by
  induction h with
  | stop => simp
  | step _ hv _ ih => simpa [hv] using ih

/-- A SEQUENCE OF that decodes has decoded every element. -/
theorem decodeChildren_true {init : Exec Obj} {dec : Obj → BerView → Exec (Bool × Obj)} {buf : Bytes}
    {vs : List BerView} (he : Elements buf vs) (hs : Sane buf) (tag0 : Int) {os : List Obj}
    (h : decodeChildren init dec buf tag0 = .ok (true, os)) :
    all2 (fun v o' => ∃ o, init = .ok o ∧ dec o v = .ok (true, o')) vs os := by
  induction he generalizing tag0 os with
  | @stop bs v ha hv =>
    obtain ⟨v', ha', hv'⟩ := assign_invalid_indep ha hv tag0
    rw [decodeChildren, ha'] at h
    simp [hv'] at h
    rw [h]; trivial
  | @step bs v vs ha hv hr ih =>
    obtain ⟨v', ha', hsv, hrest⟩ := hs.assign tag0
    rw [assign_tag_indep ha hv tag0] at ha'
    simp only [Exec.ok.injEq] at ha'
    subst ha'
    obtain ⟨hm, hsr⟩ := hrest hv
    have hbl := hsv.berLength
    rw [decodeChildren, assign_tag_indep ha hv tag0] at h
    simp only [hv, if_true] at h
    cases hi : init with
    | ub => rw [hi] at h; cases h
    | loop => rw [hi] at h; cases h
    | ok o =>
      rw [hi] at h
      cases hd : dec o v with
      | ub => rw [Exec.ok_bind, hd] at h; cases h
      | loop => rw [Exec.ok_bind, hd] at h; cases h
      | ok r =>
        obtain ⟨b, o'⟩ := r
        rw [Exec.ok_bind, hd] at h
        simp only [Exec.ok_bind] at h
        cases b with
        | false => simp at h
        | true =>
          simp only [Bool.not_true, Bool.false_eq_true, if_false] at h
          split at h
          · rw [hbl, ← hi] at h
            cases hrec : decodeChildren init dec (bs.drop (v.hdr + v.len)) v.tag with
            | ub => rw [hrec] at h; cases h
            | loop => rw [hrec] at h; cases h
            | ok s =>
              rw [hrec] at h
              simp only [Exec.ok_bind, Exec.ok.injEq, Prod.mk.injEq] at h
              obtain ⟨h1, rfl⟩ := h
              refine ⟨⟨o, rfl, hd⟩, ?_⟩
              rw [← hi]
              exact ih hsr v.tag (by rw [hrec, ← h1])
          · cases h

theorem readsSeq_mandatory {cs : List Comp} {vs : List BerView} {xs : List Val} (h : compsReadsSeq cs vs xs) {c : Comp}
    (hc : c ∈ cs) (hk : c.kind = .mandatory) : ∃ v ∈ vs, ∃ x, c.ty.Reads v x := by
  induction cs generalizing vs xs with
  | nil => simp at hc
  | cons d cs ih =>
    obtain ⟨x, xs', vs', rfl, h1, h2⟩ := h
    rcases List.mem_cons.mp hc with rfl | hc
    · unfold compReadsSeq at h1
      rw [hk] at h1
      obtain ⟨v, rfl, hr⟩ := h1
      exact ⟨v, by simp, x, hr⟩
    · obtain ⟨v, hv, x', hr⟩ := ih h2 hc
      refine ⟨v, ?_, x', hr⟩
      unfold compReadsSeq at h1
      split at h1
      · obtain ⟨u, rfl, _⟩ := h1; simp [hv]
      · rcases h1 with ⟨_, rfl, _⟩ | ⟨u, _, rfl, _⟩
        · exact hv
        · simp [hv]

theorem readsSet_mandatory {cs : List Comp} {vs : List BerView} {xs : List Val} (h : compsReadsSet cs vs xs) {c : Comp}
    (hc : c ∈ cs) (hk : c.kind = .mandatory) : (vs.filter (hasId c.ty.outer)).length = 1 := by
  obtain ⟨n, hn⟩ := List.getElem?_of_mem hc
  obtain ⟨x, _, h1⟩ := compsReadsSet_get h hn
  unfold compReadsSet at h1
  rw [hk] at h1
  obtain ⟨v, h2, _⟩ := h1
  rw [h2]; rfl

theorem readsSet_once {cs : List Comp} {vs : List BerView} {xs : List Val} (h : compsReadsSet cs vs xs) {c : Comp}
    (hc : c ∈ cs) : (vs.filter (hasId c.ty.outer)).length ≤ 1 := by
  obtain ⟨n, hn⟩ := List.getElem?_of_mem hc
  obtain ⟨x, _, h1⟩ := compsReadsSet_get h hn
  unfold compReadsSet at h1
  split at h1
  · obtain ⟨v, h2, _⟩ := h1
    rw [h2]; simp
  · rcases h1 with ⟨h2, _⟩ | ⟨v, _, h2, _⟩ <;> rw [h2] <;> simp

theorem readsSet_filter (cs : List Comp) (p : BerView → Bool) (vs : List BerView) (xs : List Val)
    (hp : ∀ c ∈ cs, ∀ v, hasId c.ty.outer v = true → p v = true) :
    compsReadsSet cs (vs.filter p) xs ↔ compsReadsSet cs vs xs := by
  have key : ∀ c ∈ cs, (vs.filter p).filter (hasId c.ty.outer) = vs.filter (hasId c.ty.outer) := by
    intro c hc
    rw [List.filter_filter]
    congr 1
    funext v
    cases h : hasId c.ty.outer v with
    | false => simp
    | true => simp [hp c hc v h]
  clear hp
  induction cs generalizing xs with
  | nil => rfl
  | cons c cs ih =>
    simp only [compsReadsSet]
    rw [key c (by simp)]
    have := fun xs => ih xs fun c hc => key c (by simp [hc])
    simp only [this]

theorem Alts.distinct_labels : (as : Alts) → as.Distinct → ∀ a ∈ as.list, ∀ i, i ∈ a.labels ↔ i ∈ a.ty.outer
  | .nil, _, a, ha => by cases ha
  | .cons l t rest, h, a, ha => by
    rcases List.mem_cons.mp ha with rfl | ha
    · exact h.1
    · exact rest.distinct_labels h.2.2 a ha

/-- Alternatives of a legal CHOICE have different identifiers. -/
theorem Alts.distinct_outer : (as : Alts) → as.Distinct → ∀ (m n : Nat) (a b : AltC), as.list[m]? = some a →
    as.list[n]? = some b → ∀ i, i ∈ a.ty.outer → i ∈ b.ty.outer → m = n
  | .nil, _, m, n, a, b, ha, _, _, _, _ => by simp [Alts.list] at ha
  | .cons l t rest, h, m, n, a, b, ha, hb, i, hi, hj => by
    have cross : ∀ (c : AltC) (k : Nat), rest.list[k]? = some c → i ∈ c.ty.outer → i ∈ t.outer → False := by
      intro c k hk hc ht
      have hmem := List.mem_of_getElem? hk
      have h1 := (rest.distinct_labels h.2.2 c hmem i).mpr hc
      exact h.2.1 i ((h.1 i).mpr ht) ((rest.labels_mem i).mpr ⟨c, hmem, h1⟩)
    cases m with
    | zero =>
      cases n with
      | zero => rfl
      | succ n =>
        simp only [Alts.list, List.getElem?_cons_zero, Option.some.injEq, List.getElem?_cons_succ] at ha hb
        subst ha
        exact (cross b n hb hj hi).elim
    | succ m =>
      cases n with
      | zero =>
        simp only [Alts.list, List.getElem?_cons_zero, Option.some.injEq, List.getElem?_cons_succ] at ha hb
        subst hb
        exact (cross a m ha hi hj).elim
      | succ n =>
        simp only [Alts.list, List.getElem?_cons_succ] at ha hb
        rw [rest.distinct_outer h.2.2 m n a b ha hb i hi hj]

end FastBer
