import Verif.Spec.Recursive
import Verif.Proofs.SchemaSafeSet
/-! # Recursive types: decoding looks only as deep as the input is long -/
namespace FastBer
open Spec

/-! ## Sizes of views -/

theorem Parsed.of_assign {bs : Bytes} {t : Int} {v : BerView} (h : BerView.assign bs t = .ok v) :
    Parsed v ∧ v.mem.length ≤ bs.length := by
  refine ⟨⟨bs, t, h⟩, ?_⟩
  cases hv : v.valid with
  | true => rw [(assign_valid h hv).1]; exact Nat.le_refl _
  | false => rw [(assign_invalid h hv).1]; exact Nat.zero_le _

theorem Parsed.content {v : BerView} (hp : Parsed v) {c : Bytes} (h : v.content = .ok c) :
    c.length ≤ v.mem.length ∧ (v.valid = true → c.length < v.mem.length) := by
  unfold BerView.content at h
  split at h
  · injection h with h
    subst h
    rename_i hle
    simp only [List.length_take, List.length_drop]
    refine ⟨by omega, fun hv => ?_⟩
    obtain ⟨bs, t, ha⟩ := hp
    obtain ⟨hm, h2, h3, _⟩ := assign_valid ha hv
    rw [hm] at hle ⊢
    omega
  · cases h

/-- An iterator and the view it shows. -/
def IterOk (N : Nat) (it : Iter) : Prop := it.buf.length ≤ N ∧ ∃ t, BerView.assign it.buf t = .ok it.view

theorem IterOk.view {N : Nat} {it : Iter} (h : IterOk N it) : Parsed it.view ∧ it.view.mem.length ≤ N := by
  obtain ⟨h1, t, h2⟩ := h
  have := Parsed.of_assign h2
  exact ⟨this.1, by omega⟩

theorem IterOk.next {N : Nat} {it it' : Iter} (h : IterOk N it) (hn : it.next = .ok it') : IterOk N it' := by
  unfold Iter.next at hn
  split at hn
  · cases hn
  · rw [Exec.bind_eq_ok] at hn
    obtain ⟨v, h1, h2⟩ := hn
    injection h2 with h2
    subst h2
    refine ⟨?_, _, h1⟩
    have := h.1
    simp only [List.length_drop]; omega

theorem begin_ok {v : BerView} (hp : Parsed v) {it : Iter} (h : v.begin = .ok it) :
    IterOk v.mem.length it ∧ (v.valid = true → it.buf.length < v.mem.length) := by
  unfold BerView.begin at h
  rw [Exec.bind_eq_ok] at h
  obtain ⟨c, hc, h⟩ := h
  unfold Iter.mk' at h
  rw [Exec.bind_eq_ok] at h
  obtain ⟨w, hw, h⟩ := h
  injection h with h
  subst h
  have := hp.content hc
  exact ⟨⟨this.1, 0, hw⟩, this.2⟩

theorem childIter_ok {v : BerView} (hp : Parsed v) (hv : v.valid = true) {id : Ident} {it : Iter} (h : childIter v id = .ok it)
    {M : Nat} (hM : v.mem.length ≤ M + 1) : IterOk M it := by
  cases id with
  | single i =>
    obtain ⟨h1, h2⟩ := begin_ok hp h
    have := h2 hv
    exact ⟨by omega, h1.2⟩
  | double o i =>
    unfold childIter at h
    rw [Exec.bind_eq_ok] at h
    obtain ⟨j, h1, h2⟩ := h
    obtain ⟨a1, a2⟩ := begin_ok hp h1
    have := a2 hv
    obtain ⟨b1, b2⟩ := a1.view
    obtain ⟨c1, c2⟩ := begin_ok b1 h2
    have hm := (Parsed.of_assign a1.2.choose_spec).2
    exact ⟨by have := c1.1; omega, c1.2⟩

theorem innerView_ok {v : BerView} (hp : Parsed v) {id : Ident} {w : BerView} (h : innerView v id = .ok w) :
    Parsed w ∧ w.mem.length ≤ v.mem.length := by
  cases id with
  | single i => injection h with h; subst h; exact ⟨hp, Nat.le_refl _⟩
  | double o i =>
    unfold innerView at h
    rw [Exec.bind_eq_ok] at h
    obtain ⟨it, h1, h2⟩ := h
    injection h2 with h2
    subst h2
    exact (begin_ok hp h1).1.view

theorem header_valid {v : BerView} {id : Ident} {k : Construction} (h : hasCorrectHeader v id k = .ok true) : v.valid = true := by
  obtain ⟨w, hm⟩ := hasCorrectHeader_true.mp h
  exact (matches_valid hm).1

theorem header_inner_valid {v : BerView} {id : Ident} {k : Construction} (h : hasCorrectHeader v id k = .ok true) {w : BerView}
    (hw : innerView v id = .ok w) : w.valid = true := by
  obtain ⟨u, hm⟩ := hasCorrectHeader_true.mp h
  rw [innerView_of_matches hm] at hw
  injection hw with hw
  subst hw
  exact (matches_valid hm).2

/-! ## Two codecs that decode alike -/

/-- The same result on views of at most `M` bytes. -/
def SameDec (M : Nat) (c c' : Codec) : Prop := ∀ v, Parsed v → v.mem.length ≤ M → ∀ o, c.decode o v = c'.decode o v

/-- The same type with the same default. -/
def SameInit (c c' : Codec) : Prop := c.ids = c'.ids ∧ c.init = c'.init

/-- Members that decode alike. -/
def FieldAlike (M : Nat) (f f' : Field) : Prop :=
  f.kind = f'.kind ∧ f.labels = f'.labels ∧ SameInit f.codec f'.codec ∧ SameDec M f.codec f'.codec

def AltAlike (M : Nat) (a a' : Alt) : Prop :=
  a.labels = a'.labels ∧ SameInit a.codec a'.codec ∧ SameDec M a.codec a'.codec

theorem field_alike {M : Nat} {f f' : Field} (h : FieldAlike M f f') {v : BerView} (hp : Parsed v) (hM : v.mem.length ≤ M)
    (o : Obj) : f.decode o v = f'.decode o v := by
  obtain ⟨k, l, c⟩ := f
  obtain ⟨k', l', c'⟩ := f'
  obtain ⟨h1, h2, ⟨h3, h4⟩, h5⟩ := h
  simp only at h1 h2 h3 h4 h5
  subst h1
  subst h2
  have := h5 v hp hM
  simp only [Field.decode, h3, h4, this]

theorem isMandatory_alike {M : Nat} {f f' : Field} (h : FieldAlike M f f') : f.isMandatory = f'.isMandatory := by
  simp only [Field.isMandatory, h.1]

theorem decodeChildren_alike {M : Nat} {c c' : Codec} (hi : SameInit c c') (hd : SameDec M c c') : ∀ (n : Nat) (buf : Bytes) (tag0 : Int),
    buf.length ≤ n → buf.length ≤ M → decodeChildren c.init c.decode buf tag0 = decodeChildren c'.init c'.decode buf tag0 := by
  intro n
  induction n with
  | zero =>
    intro buf tag0 h hM
    rw [decodeChildren, decodeChildren]
    cases ha : BerView.assign buf tag0 with
    | ub => rfl
    | loop => rfl
    | ok v =>
      obtain ⟨hp, hm⟩ := Parsed.of_assign ha
      simp only [hi.2, hd v hp (by omega)]
      have : ¬ (0 < v.berLength ∧ 0 < buf.length) := by omega
      simp only [this, dite_false]
  | succ n ih =>
    intro buf tag0 h hM
    rw [decodeChildren, decodeChildren]
    cases ha : BerView.assign buf tag0 with
    | ub => rfl
    | loop => rfl
    | ok v =>
      obtain ⟨hp, hm⟩ := Parsed.of_assign ha
      dsimp only
      simp only [hi.2, hd v hp (by omega)]
      by_cases hc : 0 < v.berLength ∧ 0 < buf.length
      · simp only [hc]
        rw [← hi.2, ih (buf.drop v.berLength) v.tag (by rw [List.length_drop]; omega) (by rw [List.length_drop]; omega), hi.2]
      · simp only [hc, dite_false]

theorem decodeSeq_alike {M : Nat} : ∀ (fs fs' : List Field), all2 (FieldAlike M) fs fs' → ∀ (os : List Obj) (it : Iter), IterOk M it →
    decodeSeq fs os it = decodeSeq fs' os it := by
  intro fs
  induction fs with
  | nil =>
    intro fs' h os it hit
    cases fs' with
    | nil => rfl
    | cons f fs' => exact h.elim
  | cons f fs ih =>
    intro fs' h os it hit
    cases fs' with
    | nil => exact h.elim
    | cons f' fs' =>
      obtain ⟨h1, h2⟩ := h
      cases os with
      | nil => rfl
      | cons o os =>
        obtain ⟨hp, hm⟩ := hit.view
        have hnext : (do
            let r ← f.decode o it.view
            if !r.1 then .ok (false, r.2 :: os)
            else
              let it' ← it.next
              let s ← decodeSeq fs os it'
              .ok (s.1, r.2 :: s.2) : Exec (Bool × List Obj)) = (do
            let r ← f'.decode o it.view
            if !r.1 then .ok (false, r.2 :: os)
            else
              let it' ← it.next
              let s ← decodeSeq fs' os it'
              .ok (s.1, r.2 :: s.2)) := by
          rw [field_alike h1 hp hm]
          cases f'.decode o it.view with
          | ub => rfl
          | loop => rfl
          | ok r =>
            simp only [Exec.ok_bind]
            cases hn : it.next with
            | ub => rfl
            | loop => rfl
            | ok it' =>
              simp only [Exec.ok_bind]
              rw [ih fs' h2 os it' (hit.next hn)]
        simp only [decodeSeq, isMandatory_alike h1, h1.2.1, hnext, ih fs' h2 os it hit]

theorem findField_alike {M : Nat} (i : Id) : ∀ (fs fs' : List Field), all2 (FieldAlike M) fs fs' → findField i fs = findField i fs' := by
  intro fs
  induction fs with
  | nil =>
    intro fs' h
    cases fs' with
    | nil => rfl
    | cons f fs' => exact h.elim
  | cons f fs ih =>
    intro fs' h
    cases fs' with
    | nil => exact h.elim
    | cons f' fs' => simp only [findField, h.1.2.1, ih fs' h.2]

theorem all2_getElem {α β : Type} {R : α → β → Prop} : ∀ {as : List α} {bs : List β}, all2 R as bs → ∀ (n : Nat),
    (as[n]? = none ∧ bs[n]? = none) ∨ ∃ a b, as[n]? = some a ∧ bs[n]? = some b ∧ R a b
  | [], [], _, n => .inl ⟨by simp, by simp⟩
  | [], _ :: _, h, _ => h.elim
  | _ :: _, [], h, _ => h.elim
  | a :: as, b :: bs, h, 0 => .inr ⟨a, b, by simp, by simp, h.1⟩
  | a :: as, b :: bs, h, n + 1 => by
    have := all2_getElem h.2 n
    simpa using this

theorem setLoop_alike {M : Nat} {fs fs' : List Field} (hf : all2 (FieldAlike M) fs fs') (ext : Bool) : ∀ (n : Nat) (buf : Bytes) (tag0 : Int)
    (os : List Obj) (counts : List Nat), buf.length ≤ n → buf.length ≤ M →
    setLoop ext fs buf tag0 os counts = setLoop ext fs' buf tag0 os counts := by
  intro n
  induction n with
  | zero =>
    intro buf tag0 os counts h hM
    rw [setLoop, setLoop]
    cases ha : BerView.assign buf tag0 with
    | ub => rfl
    | loop => rfl
    | ok v =>
      obtain ⟨hp, hm⟩ := Parsed.of_assign ha
      have hno : ¬ (0 < v.berLength ∧ 0 < buf.length) := by omega
      dsimp only
      cases v.valid with
      | false => rfl
      | true =>
        simp only [if_true]
        cases v.identifier with
        | ub => rfl
        | loop => rfl
        | ok i =>
          dsimp only
          rw [findField_alike i fs fs' hf]
          cases findField i fs' with
          | none => simp only [hno, dite_false]
          | some j =>
            dsimp only
            rcases all2_getElem hf j with ⟨h1, h2⟩ | ⟨f, f', h1, h2, h3⟩
            · rw [h1, h2]
            · rw [h1, h2]
              cases os[j]? with
              | none => rfl
              | some o =>
                dsimp only
                rw [field_alike h3 hp (by omega)]
                simp only [hno, dite_false]
  | succ n ih =>
    intro buf tag0 os counts h hM
    rw [setLoop, setLoop]
    cases ha : BerView.assign buf tag0 with
    | ub => rfl
    | loop => rfl
    | ok v =>
      obtain ⟨hp, hm⟩ := Parsed.of_assign ha
      have hrec : (0 < v.berLength ∧ 0 < buf.length) → ∀ t os counts, setLoop ext fs (buf.drop v.berLength) t os counts =
          setLoop ext fs' (buf.drop v.berLength) t os counts := fun hc t os counts =>
        ih _ t os counts (by rw [List.length_drop]; omega) (by rw [List.length_drop]; omega)
      dsimp only
      cases v.valid with
      | false => rfl
      | true =>
        simp only [if_true]
        cases v.identifier with
        | ub => rfl
        | loop => rfl
        | ok i =>
          dsimp only
          rw [findField_alike i fs fs' hf]
          by_cases hno : 0 < v.berLength ∧ 0 < buf.length
          · cases findField i fs' with
            | none => simp only [hno, dite_true, hrec hno, and_self]
            | some j =>
              dsimp only
              rcases all2_getElem hf j with ⟨h1, h2⟩ | ⟨f, f', h1, h2, h3⟩
              · rw [h1, h2]
              · rw [h1, h2]
                cases os[j]? with
                | none => rfl
                | some o =>
                  dsimp only
                  rw [field_alike h3 hp (by omega)]
                  simp only [hno, dite_true, hrec hno, and_self]
          · cases findField i fs' with
            | none => simp only [hno, dite_false]
            | some j =>
              dsimp only
              rcases all2_getElem hf j with ⟨h1, h2⟩ | ⟨f, f', h1, h2, h3⟩
              · rw [h1, h2]
              · rw [h1, h2]
                cases os[j]? with
                | none => rfl
                | some o =>
                  dsimp only
                  rw [field_alike h3 hp (by omega)]
                  simp only [hno, dite_false]

theorem setFinish_alike {M : Nat} : ∀ (fs fs' : List Field), all2 (FieldAlike M) fs fs' → ∀ (os : List Obj) (ns : List Nat),
    setFinish fs os ns = setFinish fs' os ns := by
  intro fs
  induction fs with
  | nil =>
    intro fs' h os ns
    cases fs' with
    | nil => rfl
    | cons f fs' => exact h.elim
  | cons f fs ih =>
    intro fs' h os ns
    cases fs' with
    | nil => exact h.elim
    | cons f' fs' =>
      cases os with
      | nil => rfl
      | cons o os =>
        cases ns with
        | nil => rfl
        | cons n ns => simp only [setFinish, isMandatory_alike h.1, ih fs' h.2]

theorem all2_length {α β : Type} {R : α → β → Prop} : ∀ {as : List α} {bs : List β}, all2 R as bs → as.length = bs.length
  | [], [], _ => rfl
  | [], _ :: _, h => h.elim
  | _ :: _, [], h => h.elim
  | a :: as, b :: bs, h => by simp [all2_length h.2]

theorem decodeSet_alike {M : Nat} (ext : Bool) {fs fs' : List Field} (hf : all2 (FieldAlike M) fs fs') (os : List Obj) (it : Iter)
    (hit : IterOk M it) : decodeSet ext fs os it = decodeSet ext fs' os it := by
  simp only [decodeSet, setLoop_alike hf ext it.buf.length it.buf 0 os _ (Nat.le_refl _) hit.1, all2_length hf, setFinish_alike fs fs' hf]

theorem decodeCollection_alike {M : Nat} {id : Ident} {fs fs' : List Field} {body body' : List Obj → Iter → Exec (Bool × List Obj)}
    (hl : fs.length = fs'.length) (hb : ∀ os it, IterOk M it → body os it = body' os it) (os : List Obj) {v : BerView}
    (hp : Parsed v) (hM : v.mem.length ≤ M + 1) : decodeCollection id fs body os v = decodeCollection id fs' body' os v := by
  unfold decodeCollection
  cases hv : v.valid with
  | false => rfl
  | true =>
    simp only [Bool.not_true, Bool.false_eq_true, if_false]
    cases hasCorrectHeader v id .constructed with
    | ub => rfl
    | loop => rfl
    | ok b =>
      cases b with
      | false => rfl
      | true =>
        simp only [Exec.ok_bind, Bool.not_true, Bool.false_eq_true, if_false]
        have he : fs.isEmpty = fs'.isEmpty := by
          cases fs <;> cases fs' <;> simp_all
        rw [he]
        cases hi : childIter v id with
        | ub => rfl
        | loop => rfl
        | ok it =>
          simp only [Exec.ok_bind]
          rw [hb os it (childIter_ok hp hv hi hM)]

theorem findAltIn_alike {M : Nat} (c : Class) (t : Int) : ∀ (as as' : List Alt), all2 (AltAlike M) as as' →
    findAltIn c t as = findAltIn c t as' := by
  intro as
  induction as with
  | nil =>
    intro as' h
    cases as' with
    | nil => rfl
    | cons a as' => exact h.elim
  | cons a as ih =>
    intro as' h
    cases as' with
    | nil => exact h.elim
    | cons a' as' => simp only [findAltIn, h.1.1, ih as' h.2]

theorem decodeAlt_alike {M : Nat} {as as' : List Alt} (h : all2 (AltAlike M) as as') (o : Obj) {v : BerView} (hp : Parsed v)
    (hM : v.mem.length ≤ M) : decodeAlt as o v = decodeAlt as' o v := by
  unfold decodeAlt
  have hfind : findAlt v.tag as = findAlt v.tag as' := by
    simp only [findAlt, findAltIn_alike _ _ as as' h]
  rw [hfind]
  cases findAlt v.tag as' with
  | none => rfl
  | some i =>
    dsimp only
    rcases all2_getElem h i with ⟨h1, h2⟩ | ⟨a, a', h1, h2, h3⟩
    · rw [h1, h2]
    · rw [h1, h2]
      dsimp only
      rw [h3.2.1.2]
      simp only [h3.2.2 v hp hM]

/-! ## Congruence -/

variable {ι : Type} {γ γ' : ι → Codec}

mutual
theorem RTy.same_init (h : ∀ n, SameInit (γ n) (γ' n)) : (t : RTy ι) → SameInit (t.codec γ) (t.codec γ')
  | .leaf k id => ⟨rfl, rfl⟩
  | .seqOf id t => ⟨rfl, rfl⟩
  | .seq id fs => ⟨rfl, by simp only [RTy.codec, seqCodec, collCodec, RFields.same_init h fs]⟩
  | .set id ext fs => ⟨rfl, by simp only [RTy.codec, setCodec, collCodec, RFields.same_init h fs]⟩
  | .choice id as => ⟨rfl, by
    cases as with
    | nil => rfl
    | cons l t rest => simp only [RTy.codec, choiceCodec, RAlts.alts, (RTy.same_init h t).2]⟩
  | .ref n => h n
theorem RFields.same_init (h : ∀ n, SameInit (γ n) (γ' n)) : (fs : RFields ι) → initFields (fs.fields γ) = initFields (fs.fields γ')
  | .nil => rfl
  | .cons k l t rest => by
    simp only [RFields.fields, initFields, Field.init, (RTy.same_init h t).2, RFields.same_init h rest]
end

theorem SameDec.mono {M N : Nat} {c c' : Codec} (h : SameDec M c c') (hn : N ≤ M) : SameDec N c c' :=
  fun v hp hm o => h v hp (Nat.le_trans hm hn) o

mutual
theorem RTy.same_dec (hi : ∀ n, SameInit (γ n) (γ' n)) : (t : RTy ι) → (M : Nat) → (∀ N, N < M → ∀ n, SameDec N (γ n) (γ' n)) →
    (∀ n ∈ t.heads, SameDec M (γ n) (γ' n)) → SameDec M (t.codec γ) (t.codec γ')
  | .leaf k id, M, hs, hh => fun v hp hm o => rfl
  | .seqOf id t, M, hs, hh => by
    intro v hp hm o
    cases o with
    | list os =>
      simp only [RTy.codec, seqOfCodec]
      cases hc : hasCorrectHeader v id .constructed with
      | ub => rfl
      | loop => rfl
      | ok b =>
        cases b with
        | false => rfl
        | true =>
          simp only [Exec.ok_bind, Bool.not_true, Bool.false_eq_true, if_false]
          cases hw : innerView v id with
          | ub => rfl
          | loop => rfl
          | ok w =>
            simp only [Exec.ok_bind]
            obtain ⟨h1, h2⟩ := innerView_ok hp hw
            have hv := header_inner_valid hc hw
            cases hcont : w.content with
            | ub => rfl
            | loop => rfl
            | ok bs =>
              simp only [Exec.ok_bind]
              have hlt := (h1.content hcont).2 hv
              obtain ⟨M, rfl⟩ : ∃ N, M = N + 1 := ⟨M - 1, by omega⟩
              rw [decodeChildren_alike (RTy.same_init hi t) (RTy.same_dec hi t M (fun N hN => hs N (by omega)) (fun n _ => hs M (by omega) n))
                bs.length bs 0 (Nat.le_refl _) (by omega)]
    | _ => rfl
  | .seq id fs, M, hs, hh => by
    intro v hp hm o
    cases o with
    | struct os =>
      show decodeCollection id (fs.fields γ) (decodeSeq (fs.fields γ)) os v = decodeCollection id (fs.fields γ') (decodeSeq (fs.fields γ')) os v
      cases M with
      | zero =>
        unfold decodeCollection
        cases hv : v.valid with
        | false => rfl
        | true =>
          obtain ⟨bs, t, ha⟩ := hp
          obtain ⟨h1, h2, h3, _⟩ := assign_valid ha hv
          rw [h1] at hm; omega
      | succ M =>
        have ha := RFields.same_dec hi fs M (fun N hN n => hs N (by omega) n)
        exact decodeCollection_alike (all2_length ha) (fun os it hit => decodeSeq_alike _ _ ha os it hit) os hp hm
    | _ => rfl
  | .set id ext fs, M, hs, hh => by
    intro v hp hm o
    cases o with
    | struct os =>
      show decodeCollection id (fs.fields γ) (decodeSet ext (fs.fields γ)) os v = decodeCollection id (fs.fields γ') (decodeSet ext (fs.fields γ')) os v
      cases M with
      | zero =>
        unfold decodeCollection
        cases hv : v.valid with
        | false => rfl
        | true =>
          obtain ⟨bs, t, ha⟩ := hp
          obtain ⟨h1, h2, h3, _⟩ := assign_valid ha hv
          rw [h1] at hm; omega
      | succ M =>
        have ha := RFields.same_dec hi fs M (fun N hN n => hs N (by omega) n)
        exact decodeCollection_alike (all2_length ha) (fun os it hit => decodeSet_alike ext ha os it hit) os hp hm
    | _ => rfl
  | .choice (.untagged ids) as, M, hs, hh => by
    intro v hp hm o
    cases o with
    | alt j o =>
      exact decodeAlt_alike (RAlts.same_dec hi as M hs (fun n hn => hh n (by simpa [RTy.heads] using hn))) _ hp hm
    | _ => rfl
  | .choice (.tagged id) as, M, hs, hh => by
    intro v hp hm o
    cases o with
    | alt j o =>
      simp only [RTy.codec, choiceCodec]
      cases hv : v.valid with
      | false => rfl
      | true =>
        simp only [Bool.not_true, Bool.false_eq_true, if_false]
        cases hc : hasCorrectHeader v id .constructed with
        | ub => rfl
        | loop => rfl
        | ok b =>
          cases b with
          | false => rfl
          | true =>
            simp only [Exec.ok_bind, Bool.not_true, Bool.false_eq_true, if_false]
            cases hit : childIter v id with
            | ub => rfl
            | loop => rfl
            | ok it =>
              simp only [Exec.ok_bind]
              cases M with
              | zero =>
                obtain ⟨bs, t, ha⟩ := hp
                obtain ⟨h1, h2, h3, _⟩ := assign_valid ha hv
                rw [h1] at hm; omega
              | succ M =>
                obtain ⟨h1, h2⟩ := (childIter_ok hp hv hit hm).view
                rw [decodeAlt_alike (RAlts.same_dec hi as M (fun N hN => hs N (by omega)) (fun n _ => hs M (by omega) n)) _ h1 h2]
    | _ => rfl
  | .ref n, M, hs, hh => hh n (by simp [RTy.heads])
theorem RFields.same_dec (hi : ∀ n, SameInit (γ n) (γ' n)) : (fs : RFields ι) → (M : Nat) → (∀ N, N ≤ M → ∀ n, SameDec N (γ n) (γ' n)) →
    all2 (FieldAlike M) (fs.fields γ) (fs.fields γ')
  | .nil, M, hs => trivial
  | .cons k l t rest, M, hs =>
    ⟨⟨rfl, rfl, RTy.same_init hi t, RTy.same_dec hi t M (fun N hN => hs N (by omega)) (fun n _ => hs M (Nat.le_refl _) n)⟩,
      RFields.same_dec hi rest M hs⟩
theorem RAlts.same_dec (hi : ∀ n, SameInit (γ n) (γ' n)) : (as : RAlts ι) → (M : Nat) → (∀ N, N < M → ∀ n, SameDec N (γ n) (γ' n)) →
    (∀ n ∈ as.heads, SameDec M (γ n) (γ' n)) → all2 (AltAlike M) (as.alts γ) (as.alts γ')
  | .nil, M, hs, hh => trivial
  | .cons l t rest, M, hs, hh =>
    ⟨⟨rfl, RTy.same_init hi t, RTy.same_dec hi t M hs (fun n hn => hh n (by simp [RAlts.heads, hn]))⟩,
      RAlts.same_dec hi rest M hs (fun n hn => hh n (by simp [RAlts.heads, hn]))⟩
end

/-! ## The named types -/

/-- Codes with the identifiers of the named types. -/
def REnv.Named (E : REnv ι) (b : ι → Codec) : Prop := ∀ m, (b m).ids = (E m).ids

theorem RTy.codec_ids (t : RTy ι) (h : ∀ m, t ≠ .ref m) : (t.codec γ).ids = t.ids := by
  cases t with
  | leaf k id => cases k <;> rfl
  | seqOf id t => rfl
  | seq id fs => rfl
  | set id ext fs => rfl
  | choice cid as => cases cid <;> rfl
  | ref n => exact (h n rfl).elim

theorem REnv.approx_ids {E : REnv ι} (hp : ∀ n m, E n ≠ .ref m) {b : ι → Codec} (hb : E.Named b) (k : Nat) : E.Named (E.approx b k) := by
  cases k with
  | zero => exact hb
  | succ k => exact fun m => RTy.codec_ids _ (hp m)

theorem REnv.approx_add {E : REnv ι} (b : ι → Codec) (k j : Nat) : E.approx b (k + j) = E.approx (E.approx b j) k := by
  induction k with
  | zero => simp [REnv.approx]
  | succ k ih =>
    rw [show k + 1 + j = (k + j) + 1 by omega]
    simp only [REnv.approx, ih]

/-- What the first constructs, the second constructs. -/
def InitLe (c c' : Codec) : Prop := ∀ o, c.init = .ok o → c'.init = .ok o

mutual
theorem RTy.init_le (h : ∀ n, InitLe (γ n) (γ' n)) : (t : RTy ι) → InitLe (t.codec γ) (t.codec γ')
  | .leaf k id => fun _ h => h
  | .seqOf id t => fun _ h => h
  | .seq id fs => fun o ho => by
    simp only [RTy.codec, seqCodec, collCodec] at ho ⊢
    rw [Exec.bind_eq_ok] at ho ⊢
    obtain ⟨os, h1, h2⟩ := ho
    exact ⟨os, RFields.init_le h fs os h1, h2⟩
  | .set id ext fs => fun o ho => by
    simp only [RTy.codec, setCodec, collCodec] at ho ⊢
    rw [Exec.bind_eq_ok] at ho ⊢
    obtain ⟨os, h1, h2⟩ := ho
    exact ⟨os, RFields.init_le h fs os h1, h2⟩
  | .choice id as => fun o ho => by
    cases as with
    | nil => exact ho
    | cons l t rest =>
      simp only [RTy.codec, choiceCodec, RAlts.alts] at ho ⊢
      rw [Exec.bind_eq_ok] at ho ⊢
      obtain ⟨os, h1, h2⟩ := ho
      exact ⟨os, RTy.init_le h t os h1, h2⟩
  | .ref n => h n
theorem RFields.init_le (h : ∀ n, InitLe (γ n) (γ' n)) : (fs : RFields ι) → ∀ os, initFields (fs.fields γ) = .ok os →
    initFields (fs.fields γ') = .ok os
  | .nil => fun _ h => h
  | .cons k l t rest => fun os ho => by
    simp only [RFields.fields, initFields] at ho ⊢
    rw [Exec.bind_eq_ok] at ho ⊢
    obtain ⟨o, h1, h2⟩ := ho
    rw [Exec.bind_eq_ok] at h2
    obtain ⟨os', h3, h4⟩ := h2
    refine ⟨o, ?_, ?_⟩
    · cases k with
      | mandatory => exact RTy.init_le h t o h1
      | optional => exact h1
      | default d => exact h1
    · rw [Exec.bind_eq_ok]
      exact ⟨os', RFields.init_le h rest os' h3, h4⟩
end

theorem REnv.program_init_le {E : REnv ι} (b : ι → Codec) (k : Nat) (n : ι) : InitLe (E.program k n) (E.approx b k n) := by
  induction k generalizing n with
  | zero => exact fun o h => nomatch h
  | succ k ih => exact RTy.init_le (fun m => ih m) (E n)

/-- Once default construction of every type returns, it always does, with the same objects. -/
theorem REnv.init_eq {E : REnv ι} {K : Nat} (hK : ∀ n, ∃ o, E.new n K = .ok o) (b : ι → Codec) {k : Nat} (hk : K ≤ k) (n : ι) :
    (E.approx b k n).init = E.new n K := by
  obtain ⟨o, ho⟩ := hK n
  obtain ⟨j, rfl⟩ := Nat.exists_eq_add_of_le hk
  rw [ho, REnv.approx_add]
  exact REnv.program_init_le _ K n o ho

/-- How deep calls can nest when `M` bytes are decoded. -/
def REnv.bound (K R M r : Nat) : Nat := K + 1 + M * (R + 1) + r

theorem REnv.same_dec {E : REnv ι} (hp : ∀ n m, E n ≠ .ref m) {K : Nat} (hK : ∀ n, ∃ o, E.new n K = .ok o)
    {rank : ι → Nat} {R : Nat} (hR : ∀ n, rank n ≤ R) (hrank : ∀ n m, m ∈ (E n).heads → rank m < rank n)
    {b b' : ι → Codec} (hb : E.Named b) (hb' : E.Named b') (M : Nat) :
    ∀ (r : Nat) (n : ι), rank n ≤ r → ∀ k k', REnv.bound K R M r ≤ k → REnv.bound K R M r ≤ k' →
    SameDec M (E.approx b k n) (E.approx b' k' n) := by
  induction M using Nat.strongRecOn with
  | ind M ihM =>
    intro r
    induction r using Nat.strongRecOn with
    | ind r ihr =>
      intro n hn k k' hk hk'
      unfold REnv.bound at hk hk'
      obtain ⟨k, rfl⟩ : ∃ j, k = j + 1 := ⟨k - 1, by omega⟩
      obtain ⟨k', rfl⟩ : ∃ j, k' = j + 1 := ⟨k' - 1, by omega⟩
      refine RTy.same_dec (fun m => ⟨?_, ?_⟩) (E n) M ?_ ?_
      · rw [REnv.approx_ids hp hb, REnv.approx_ids hp hb']
      · rw [REnv.init_eq hK b (by omega) m, REnv.init_eq hK b' (by omega) m]
      · intro N hN m
        have hmul : (N + 1) * (R + 1) ≤ M * (R + 1) := Nat.mul_le_mul_right _ (by omega)
        rw [Nat.add_mul] at hmul
        exact ihM N hN R m (hR m) k k' (by unfold REnv.bound; omega) (by unfold REnv.bound; omega)
      · intro m hm
        have := hrank n m hm
        exact ihr (rank m) (by omega) m (Nat.le_refl _) k k' (by unfold REnv.bound; omega) (by unfold REnv.bound; omega)

end FastBer
