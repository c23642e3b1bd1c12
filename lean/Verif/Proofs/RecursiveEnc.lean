import Verif.Proofs.RecursiveDec
/-! # Recursive types: encoding and comparison look only as deep as the object -/
namespace FastBer
open Spec

/-- The same results on objects of size at most `M`. -/
def SameEnc (M : Nat) (c c' : Codec) : Prop :=
  (∀ o, sizeOf o ≤ M → c.size o = c'.size o ∧ ∀ buf, c.encode o buf = c'.encode o buf) ∧
  ∀ a b, sizeOf a ≤ M → sizeOf b ≤ M → c.eq a b = c'.eq a b

theorem SameEnc.mono {M N : Nat} {c c' : Codec} (h : SameEnc M c c') (hn : N ≤ M) : SameEnc N c c' :=
  ⟨fun o ho => h.1 o (by omega), fun a b ha hb => h.2 a b (by omega) (by omega)⟩

theorem SameEnc.refl (M : Nat) (c : Codec) : SameEnc M c c := ⟨fun _ _ => ⟨rfl, fun _ => rfl⟩, fun _ _ _ _ => rfl⟩

variable {ι : Type} {γ γ' : ι → Codec}

mutual
theorem RTy.ground_codec : (t : RTy ι) → t.Ground → t.codec γ = t.codec γ'
  | .leaf k id, _ => rfl
  | .seqOf id t, h => by simp only [RTy.codec, RTy.ground_codec t h]
  | .seq id fs, h => by simp only [RTy.codec, RFields.ground_fields fs h]
  | .set id ext fs, h => by simp only [RTy.codec, RFields.ground_fields fs h]
  | .choice id as, h => by simp only [RTy.codec, RAlts.ground_alts as h]
theorem RFields.ground_fields : (fs : RFields ι) → fs.Ground → fs.fields γ = fs.fields γ'
  | .nil, _ => rfl
  | .cons k l t rest, h => by simp only [RFields.fields, RTy.ground_codec t h.1, RFields.ground_fields rest h.2]
theorem RAlts.ground_alts : (as : RAlts ι) → as.Ground → as.alts γ = as.alts γ'
  | .nil, _ => rfl
  | .cons l t rest, h => by simp only [RAlts.alts, RTy.ground_codec t h.1, RAlts.ground_alts rest h.2]
end

/-- Members that encode alike. -/
def FieldEnc (M : Nat) (f f' : Field) : Prop :=
  f.kind = f'.kind ∧ SameEnc M f.codec f'.codec ∧ (∀ d, f.kind = .default d → f.codec = f'.codec)

theorem field_enc {M : Nat} {f f' : Field} (h : FieldEnc M f f') :
    (∀ o, sizeOf o ≤ M → f.size o = f'.size o ∧ ∀ buf, f.encode o buf = f'.encode o buf) ∧
    ∀ a b, sizeOf a ≤ M → sizeOf b ≤ M → f.eq a b = f'.eq a b := by
  obtain ⟨k, l, c⟩ := f
  obtain ⟨k', l', c'⟩ := f'
  obtain ⟨h1, h2, h3⟩ := h
  simp only at h1 h2 h3
  subst h1
  cases k with
  | mandatory => exact h2
  | optional =>
    refine ⟨fun o ho => ?_, fun a b ha hb => ?_⟩
    · cases o with
      | some o =>
        simp only [Obj.some.sizeOf_spec] at ho
        exact h2.1 o (by omega)
      | _ => exact ⟨rfl, fun _ => rfl⟩
    · cases a with
      | some a =>
        cases b with
        | some b =>
          simp only [Obj.some.sizeOf_spec] at ha hb
          exact h2.2 a b (by omega) (by omega)
        | _ => rfl
      | _ => cases b <;> rfl
  | default d =>
    have := h3 d rfl
    subst this
    exact ⟨fun o _ => ⟨rfl, fun _ => rfl⟩, fun _ _ _ _ => rfl⟩

theorem sizeOf_mem {o : Obj} {os : List Obj} {M : Nat} (h : o ∈ os) (hs : sizeOf os ≤ M) : sizeOf o ≤ M := by
  have := List.sizeOf_lt_of_mem h; omega

theorem sizeFields_enc {M : Nat} : ∀ (fs fs' : List Field), all2 (FieldEnc M) fs fs' → ∀ (os : List Obj), (∀ o ∈ os, sizeOf o ≤ M) →
    sizeFields fs os = sizeFields fs' os ∧ encodersOf fs os = encodersOf fs' os := by
  intro fs
  induction fs with
  | nil =>
    intro fs' h os hs
    cases fs' with
    | nil => exact ⟨rfl, rfl⟩
    | cons f fs' => exact h.elim
  | cons f fs ih =>
    intro fs' h os hs
    cases fs' with
    | nil => exact h.elim
    | cons f' fs' =>
      cases os with
      | nil => exact ⟨rfl, rfl⟩
      | cons o os =>
        obtain ⟨i1, i2⟩ := ih fs' h.2 os fun o ho => hs o (by simp [ho])
        have := (field_enc h.1).1 o (hs o (by simp))
        simp only [sizeFields, encodersOf, this.1, i1, i2, funext this.2, and_self]

theorem eqFields_enc {M : Nat} : ∀ (fs fs' : List Field), all2 (FieldEnc M) fs fs' → ∀ (as bs : List Obj), (∀ o ∈ as, sizeOf o ≤ M) →
    (∀ o ∈ bs, sizeOf o ≤ M) → eqFields fs as bs = eqFields fs' as bs := by
  intro fs
  induction fs with
  | nil =>
    intro fs' h as bs ha hb
    cases fs' with
    | nil => rfl
    | cons f fs' => exact h.elim
  | cons f fs ih =>
    intro fs' h as bs ha hb
    cases fs' with
    | nil => exact h.elim
    | cons f' fs' =>
      cases as with
      | nil => rfl
      | cons a as =>
        cases bs with
        | nil => rfl
        | cons b bs =>
          simp only [eqFields, (field_enc h.1).2 a b (ha a (by simp)) (hb b (by simp)),
            ih fs' h.2 as bs (fun o ho => ha o (by simp [ho])) (fun o ho => hb o (by simp [ho]))]

theorem eqList_enc {M : Nat} {c c' : Codec} (h : SameEnc M c c') : ∀ (as bs : List Obj), (∀ o ∈ as, sizeOf o ≤ M) →
    (∀ o ∈ bs, sizeOf o ≤ M) → eqList c.eq as bs = eqList c'.eq as bs := by
  intro as
  induction as with
  | nil => intro bs _ _; cases bs <;> rfl
  | cons a as ih =>
    intro bs ha hb
    cases bs with
    | nil => rfl
    | cons b bs =>
      simp only [eqList, h.2 a b (ha a (by simp)) (hb b (by simp)),
        ih bs (fun o ho => ha o (by simp [ho])) (fun o ho => hb o (by simp [ho]))]

theorem coll_enc {M : Nat} {id : Ident} {fs fs' : List Field} {body body' : List Obj → Iter → Exec (Bool × List Obj)}
    (h : all2 (FieldEnc M) fs fs') : SameEnc (M + 1) (collCodec id fs body) (collCodec id fs' body') := by
  refine ⟨fun o ho => ?_, fun a b ha hb => ?_⟩
  · cases o with
    | struct os =>
      simp only [Obj.struct.sizeOf_spec] at ho
      obtain ⟨h1, h2⟩ := sizeFields_enc fs fs' h os fun o hm => sizeOf_mem hm (by omega)
      simp only [collCodec, h1, h2, true_and, implies_true]
    | _ => exact ⟨rfl, fun _ => rfl⟩
  · cases a with
    | struct as =>
      cases b with
      | struct bs =>
        simp only [Obj.struct.sizeOf_spec] at ha hb
        exact eqFields_enc fs fs' h as bs (fun o hm => sizeOf_mem hm (by omega)) (fun o hm => sizeOf_mem hm (by omega))
      | _ => rfl
    | _ => cases b <;> rfl

/-- Alternatives that encode alike. -/
def AltEnc (M : Nat) (a a' : Alt) : Prop := SameEnc M a.codec a'.codec

theorem choice_enc {M : Nat} {cid : ChoiceIdent} {as as' : List Alt} (h : all2 (AltEnc M) as as') :
    SameEnc (M + 1) (choiceCodec cid as) (choiceCodec cid as') := by
  refine ⟨fun o ho => ?_, fun a b ha hb => ?_⟩
  · cases o with
    | alt i o =>
      simp only [Obj.alt.sizeOf_spec] at ho
      rcases all2_getElem h i with ⟨h1, h2⟩ | ⟨a, a', h1, h2, h3⟩
      · simp only [choiceCodec, h1, h2, true_and, implies_true]
      · obtain ⟨h4, h5⟩ := h3.1 o (by omega)
        simp only [choiceCodec, h1, h2, h4]
        refine ⟨trivial, fun buf => ?_⟩
        cases cid with
        | untagged ids => exact h5 buf
        | tagged id => simp only [funext h5]
    | _ => exact ⟨rfl, fun _ => rfl⟩
  · cases a with
    | alt i a =>
      cases b with
      | alt j b =>
        simp only [Obj.alt.sizeOf_spec] at ha hb
        simp only [choiceCodec]
        rcases all2_getElem h i with ⟨h1, h2⟩ | ⟨x, x', h1, h2, h3⟩
        · simp only [h1, h2]
        · simp only [h1, h2, h3.2 a b (by omega) (by omega)]
      | _ => rfl
    | _ => cases b <;> rfl

theorem seqOf_enc {M : Nat} {id : Ident} {c c' : Codec} (h : SameEnc M c c') : SameEnc (M + 1) (seqOfCodec id c) (seqOfCodec id c') := by
  refine ⟨fun o ho => ?_, fun a b ha hb => ?_⟩
  · cases o with
    | list os =>
      simp only [Obj.list.sizeOf_spec] at ho
      have hm : ∀ o ∈ os, sizeOf o ≤ M := fun o hm => sizeOf_mem hm (by omega)
      have h1 : os.map c.size = os.map c'.size := List.map_congr_left fun o ho => (h.1 o (hm o ho)).1
      have h2 : os.map c.encode = os.map c'.encode := List.map_congr_left fun o ho => funext (h.1 o (hm o ho)).2
      simp only [seqOfCodec, h1, h2, true_and, implies_true]
    | _ => exact ⟨rfl, fun _ => rfl⟩
  · cases a with
    | list as =>
      cases b with
      | list bs =>
        simp only [Obj.list.sizeOf_spec] at ha hb
        simp only [seqOfCodec, eqList_enc h as bs (fun o hm => sizeOf_mem hm (by omega)) (fun o hm => sizeOf_mem hm (by omega))]
      | _ => rfl
    | _ => cases b <;> rfl

mutual
theorem RTy.same_enc {M : Nat} (h : ∀ n, SameEnc M (γ n) (γ' n)) : (t : RTy ι) → t.Defaults →
    SameEnc M (t.codec γ) (t.codec γ') ∧ ((∀ n, t ≠ .ref n) → SameEnc (M + 1) (t.codec γ) (t.codec γ'))
  | .leaf k id, _ => ⟨SameEnc.refl _ _, fun _ => SameEnc.refl _ _⟩
  | .seqOf id t, hd => by
    have := seqOf_enc (id := id) (RTy.same_enc h t hd).1
    exact ⟨this.mono (by omega), fun _ => this⟩
  | .seq id fs, hd => by
    have : SameEnc (M + 1) ((RTy.seq id fs).codec γ) ((RTy.seq id fs).codec γ') := coll_enc (RFields.same_enc h fs hd)
    exact ⟨this.mono (by omega), fun _ => this⟩
  | .set id ext fs, hd => by
    have : SameEnc (M + 1) ((RTy.set id ext fs).codec γ) ((RTy.set id ext fs).codec γ') := coll_enc (RFields.same_enc h fs hd)
    exact ⟨this.mono (by omega), fun _ => this⟩
  | .choice id as, hd => by
    have : SameEnc (M + 1) ((RTy.choice id as).codec γ) ((RTy.choice id as).codec γ') := choice_enc (RAlts.same_enc h as hd)
    exact ⟨this.mono (by omega), fun _ => this⟩
  | .ref n, _ => ⟨h n, fun hn => (hn n rfl).elim⟩
theorem RFields.same_enc {M : Nat} (h : ∀ n, SameEnc M (γ n) (γ' n)) : (fs : RFields ι) → fs.Defaults →
    all2 (FieldEnc M) (fs.fields γ) (fs.fields γ')
  | .nil, _ => trivial
  | .cons k l t rest, hd => by
    refine ⟨⟨rfl, (RTy.same_enc h t hd.1).1, fun d hk => ?_⟩, RFields.same_enc h rest hd.2.2⟩
    have := hd.2.1
    simp only at hk
    rw [hk] at this
    exact RTy.ground_codec t this
theorem RAlts.same_enc {M : Nat} (h : ∀ n, SameEnc M (γ n) (γ' n)) : (as : RAlts ι) → as.Defaults →
    all2 (AltEnc M) (as.alts γ) (as.alts γ')
  | .nil, _ => trivial
  | .cons l t rest, hd => ⟨(RTy.same_enc h t hd.1).1, RAlts.same_enc h rest hd.2⟩
end

theorem REnv.same_enc {E : REnv ι} (hp : ∀ n m, E n ≠ .ref m) (hd : ∀ n, (E n).Defaults) (b b' : ι → Codec) (M : Nat) :
    ∀ n k k', M ≤ k → M ≤ k' → SameEnc M (E.approx b k n) (E.approx b' k' n) := by
  induction M with
  | zero =>
    intro n k k' _ _
    have hpos : ∀ o : Obj, 0 < sizeOf o := by intro o; cases o <;> simp <;> omega
    exact ⟨fun o ho => by have := hpos o; omega, fun a _ ha => by have := hpos a; omega⟩
  | succ M ih =>
    intro n k k' hk hk'
    obtain ⟨k, rfl⟩ : ∃ j, k = j + 1 := ⟨k - 1, by omega⟩
    obtain ⟨k', rfl⟩ : ∃ j, k' = j + 1 := ⟨k' - 1, by omega⟩
    exact (RTy.same_enc (fun m => ih m k k' (by omega) (by omega)) (E n) (hd n)).2 (hp n)

end FastBer
