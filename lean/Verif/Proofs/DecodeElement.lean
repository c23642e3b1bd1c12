import Verif.Spec.Fresh
import Verif.Spec.SchemaRead
import Verif.Proofs.Impl
import Verif.Proofs.SchemaSafeSeq
/-!
# Elements of X.690 as the library sees them
-/
namespace FastBer.Ast
open Spec FastBer.Spec

theorem readLength_field {n : Nat} {l : Bytes} (h : LengthField 8 n l) (s : Bytes) : readLength (l ++ s) = some (l.length, n) := by
  cases h with
  | short h =>
    have : (UInt8.ofNat n).toNat = n := by simp; omega
    simp [readLength, this, h]
  | @long ds h1 h2 h3 =>
    have hb : (UInt8.ofNat (128 + ds.length)).toNat = 128 + ds.length := by simp; omega
    have h4 : 128 + ds.length - 128 = ds.length := by omega
    simp only [List.cons_append, readLength, hb, h4]
    rw [if_neg (by omega), if_pos ⟨h1, h2, by simp⟩]
    simp [h3]

theorem lengthField_pos {max n : Nat} {l : Bytes} (h : LengthField max n l) : 0 < l.length := by cases h <;> simp

/-- An element followed by anything. -/
theorem parse_element {contents : Builtin → Bytes → Prop} {tag : Spec.Tag} {k : Construction} {c e : Bytes} (h : Element (definite contents) tag k c e)
    (ht : tag.2 < 2 ^ 63) (hl : e.length < 2 ^ 64) (s : Bytes) :
    ∃ v, BerView.parse (e ++ s) = .ok v ∧ v.valid = true ∧ v.hdr + v.len = e.length ∧ v.len = c.length ∧ v.mem = e ++ s ∧ v.identifier = .ok (idOf tag) ∧
      v.construction = .ok k ∧ v.content = .ok c ∧ ((e ++ s).drop v.hdr).take v.len = c := by
  obtain ⟨l, hf, rfl⟩ := h
  have hf : LengthField 8 c.length l := hf
  have p1 := identifierOctets_length_pos (classOf tag.1) k tag.2
  have p2 := lengthField_pos hf
  have hap : identifierOctets (classOf tag.1) k tag.2 ++ l ++ c ++ s = identifierOctets (classOf tag.1) k tag.2 ++ (l ++ (c ++ s)) := by
    simp only [List.append_assoc]
  have hlen : (identifierOctets (classOf tag.1) k tag.2).length + l.length + c.length < 2 ^ 64 := by
    simpa only [List.length_append] using hl
  refine ⟨⟨true, identifierOctets (classOf tag.1) k tag.2 ++ l ++ c ++ s, tag.2, (identifierOctets (classOf tag.1) k tag.2).length + l.length, c.length⟩, ?_, rfl, ?_, rfl, rfl, ?_⟩
  · unfold BerView.parse BerView.assign
    rw [hap, extractTag_identifierOctets _ _ _ _ _ ht]
    simp only [Exec.ok_bind]
    rw [extractLength_spec _ _ _ (by simp), List.drop_left, readLength_field hf]
    simp only [Option.getD_some, Exec.ok_bind]
    rw [u64_of_lt hlen, if_neg]
    simp only [List.length_append]
    omega
  · simp only [List.length_append]
  have hfirst : ∃ m, m ≤ 31 ∧ ∃ tl, identifierOctets (classOf tag.1) k tag.2 ++ (l ++ (c ++ s)) = UInt8.ofNat ((classOf tag.1).toNat * 64 + k.toNat * 32 + m) :: tl := by
    unfold identifierOctets
    split
    · exact ⟨tag.2, by omega, _, rfl⟩
    · exact ⟨31, by omega, _, rfl⟩
  obtain ⟨m, hm, tl, hfirst⟩ := hfirst
  have htake : (List.drop ((identifierOctets (classOf tag.1) k tag.2).length + l.length) (identifierOctets (classOf tag.1) k tag.2 ++ (l ++ (c ++ s)))).take c.length = c := by
    rw [← List.append_assoc, ← List.length_append, List.drop_left, List.take_left]
  refine ⟨?_, ?_, ?_, ?_⟩
  · rw [identifier_eq_ok]
    refine ⟨?_, rfl⟩
    rw [BerView.cls]
    dsimp only
    rw [hap, hfirst]
    exact congrArg Exec.ok (getClass_first _ k m hm)
  · rw [BerView.construction]
    dsimp only
    rw [hap, hfirst]
    exact congrArg Exec.ok (getConstruction_first _ k m hm)
  · rw [BerView.content]
    dsimp only
    rw [if_pos (by simp only [List.length_append]; omega), hap, htake]
  · dsimp only
    rw [hap, htake]

/-- An element, seen with anything behind it, satisfies `P`. -/
def Good (P : BerView → Prop) (e : Bytes) : Prop :=
  ∀ s, Sane s → ∃ v, BerView.parse (e ++ s) = .ok v ∧ v.valid = true ∧ v.hdr + v.len = e.length ∧ P v ∧ Sane (e ++ s)

theorem Good.imp {P Q : BerView → Prop} {e : Bytes} (h : Good P e) (hpq : ∀ v, v.valid = true → P v → Q v) : Good Q e := fun s hs => by
  obtain ⟨v, h1, h2, h3, h4, h5⟩ := h s hs
  exact ⟨v, h1, h2, h3, hpq v h2 h4, h5⟩

theorem Good.ne {P : BerView → Prop} {e : Bytes} (h : Good P e) : e ≠ [] := by
  rintro rfl
  obtain ⟨v, h1, h2, _⟩ := h [] sane_nil
  have : BerView.parse [] = .ok (BerView.invalid 0) := by simp [BerView.parse, BerView.assign, extractTag, extractLength]
  rw [List.append_nil, this] at h1
  cases h1
  cases h2

theorem Good.sane {P : BerView → Prop} {e : Bytes} (h : Good P e) : Sane e := by
  obtain ⟨v, _, _, _, _, h⟩ := h [] sane_nil
  rwa [List.append_nil] at h

theorem Spec_sane_peek {c : Bytes} (h : Sane c) : ∃ w, BerView.parse c = .ok w := by
  obtain ⟨v, h, _⟩ := h.assign 0
  exact ⟨v, h⟩

theorem good_element {contents : Builtin → Bytes → Prop} {tag : Spec.Tag} {k : Construction} {c e : Bytes} (h : Element (definite contents) tag k c e)
    (ht : tag.2 < 2 ^ 63) (hl : e.length < 2 ^ 64) (hpk : ∃ w, BerView.parse c = .ok w) (hin : k = .constructed → Sane c) :
    Good (fun v => v.len = c.length ∧ v.identifier = .ok (idOf tag) ∧ v.construction = .ok k ∧ v.content = .ok c) e := by
  intro s hs
  obtain ⟨v, h1, h2, h3, h4, h5, h6, h7, h8, h9⟩ := parse_element h ht hl s
  refine ⟨v, h1, h2, h3, ⟨h4, h6, h7, h8⟩, ?_⟩
  refine .elem h1 h2 (by omega) (by rw [h9]; exact hpk) (fun hk => ?_) (by rw [h3, List.drop_left]; exact hs)
  rw [h9]
  refine hin ?_
  rw [h7] at hk
  simpa using hk

/-- Contents with the tags of an identifier around them. -/
theorem good_wrapped {contents : Builtin → Bytes → Prop} {id : Ident} {ts : List Spec.Tag} (hid : identOk id) (hlist : id.list = ts.map idOf) {k : Construction} {c e : Bytes}
    (h : Wrapped (definite contents) ts k c e) (hl : e.length < 2 ^ 64) (hpk : ∃ w, BerView.parse c = .ok w) (hin : k = .constructed → Sane c) :
    Good (fun v => ∃ w, Matches v id k w ∧ w.content = .ok c ∧ Fills v id w) e := by
  have hb : ∀ tag : Spec.Tag, idOk (idOf tag) → tag.2 < 2 ^ 63 := by
    intro tag h
    have := h.2
    simp only [idOf] at this
    omega
  cases id with
  | single i =>
    match ts, hlist, h with
    | [tag], hlist, h =>
      simp only [Ident.list, List.map_cons, List.map_nil, List.cons.injEq, and_true] at hlist
      subst hlist
      refine (good_element h (hb _ hid) hl hpk hin).imp ?_
      rintro v hv ⟨h1, h2, h3, h4⟩
      exact ⟨v, ⟨hv, h2, h3, rfl⟩, h4, trivial⟩
    | [], hlist, _ => cases hlist
    | _ :: _ :: _, hlist, _ => cases hlist
  | double o i =>
    match ts, hlist, h with
    | [t1, t2], hlist, h =>
      simp only [Ident.list, List.map_cons, List.map_nil, List.cons.injEq, and_true] at hlist
      obtain ⟨rfl, rfl⟩ := hlist
      obtain ⟨e', h', h⟩ := h
      have hl' : e'.length < 2 ^ 64 := by
        obtain ⟨l, _, rfl⟩ := h
        simp only [List.length_append] at hl
        omega
      have hi := good_element h' (hb _ hid.2) hl' hpk hin
      refine (good_element h (hb _ hid.1) hl (Spec_sane_peek hi.sane) fun _ => hi.sane).imp ?_
      rintro v hv ⟨h1, h2, h3, h4⟩
      obtain ⟨w, a1, a2, a3, ⟨a4, a5, a6, a7⟩, _⟩ := hi [] sane_nil
      rw [List.append_nil] at a1
      exact ⟨w, ⟨hv, h2, h3, e', h4, a1, a2, a5, a6⟩, a7, by rw [Fills, h1, a3]⟩
    | [], hlist, _ => cases hlist
    | [_], hlist, _ => cases hlist
    | _ :: _ :: _ :: _, hlist, _ => cases hlist

theorem wrapped_length {r : Rules} {ts : List Spec.Tag} {k : Construction} {c e : Bytes} (h : Wrapped r ts k c e) : c.length ≤ e.length := by
  have hel : ∀ {tag : Spec.Tag} {k : Construction} {c e : Bytes}, Element r tag k c e → c.length ≤ e.length := by
    rintro tag k c e ⟨l, _, rfl⟩
    simp only [List.length_append]
    omega
  induction ts generalizing e with
  | nil => cases h; exact Nat.le_refl _
  | cons tag ts ih =>
    cases ts with
    | nil => exact hel h
    | cons t2 ts =>
      obtain ⟨e', h1, h2⟩ := h
      exact Nat.le_trans (ih h1) (hel h2)

theorem parse_of_noHugeTag {c : Bytes} (h : NoHugeTag c) : ∃ w, BerView.parse c = .ok w := by
  cases hp : BerView.parse c with
  | ok w => exact ⟨w, rfl⟩
  | ub => exact absurd ((assign_ub_iff_tag c 0).1 hp) h
  | loop => exact absurd hp (assign_not_loop _ _)

/-! ## Lists of elements -/

/-- Elements one after the other. -/
theorem good_elements : ∀ (es : List Bytes) (Ps : List (BerView → Prop)), all2 (fun e P => Good P e) es Ps →
    ∃ vs, Elements es.flatten vs ∧ all2 (fun v (P : BerView → Prop) => P v ∧ v.valid = true) vs Ps ∧ Sane es.flatten
  | [], [], _ => ⟨[], .stop (v := BerView.invalid 0) (by simp [BerView.parse, BerView.assign, extractTag, extractLength]) rfl, trivial, sane_nil⟩
  | [], _ :: _, h => False.elim h
  | _ :: _, [], h => False.elim h
  | e :: es, P :: Ps, h => by
    obtain ⟨vs, h1, h2, h3⟩ := good_elements es Ps h.2
    obtain ⟨v, a1, a2, a3, a4, a5⟩ := h.1 es.flatten h3
    refine ⟨v :: vs, ?_, ⟨⟨a4, a2⟩, h2⟩, by rw [List.flatten_cons]; exact a5⟩
    rw [List.flatten_cons]
    refine .step a1 a2 ?_
    rw [a3, List.drop_left]
    exact h1

theorem all2_perm {α β : Type} {R : α → β → Prop} {l l' : List α} (hp : l.Perm l') : ∀ {m : List β}, all2 R l m → ∃ m', m.Perm m' ∧ all2 R l' m' := by
  induction hp with
  | nil => intro m h; exact ⟨m, .refl _, h⟩
  | cons x _ ih =>
    intro m h
    match m, h with
    | y :: m, h =>
      obtain ⟨m', h1, h2⟩ := ih h.2
      exact ⟨y :: m', h1.cons y, h.1, h2⟩
  | swap x y l =>
    intro m h
    match m, h with
    | a :: b :: m, h => exact ⟨b :: a :: m, .swap b a m, h.2.1, h.1, h.2.2⟩
  | trans _ _ ih1 ih2 =>
    intro m h
    obtain ⟨m1, h1, h2⟩ := ih1 h
    obtain ⟨m2, h3, h4⟩ := ih2 h2
    exact ⟨m2, h1.trans h3, h4⟩

theorem all2_flip {α β : Type} {R : α → β → Prop} : ∀ {l : List α} {m : List β}, all2 R l m → all2 (fun b a => R a b) m l
  | [], [], _ => trivial
  | _ :: _, _ :: _, h => ⟨h.1, all2_flip h.2⟩
  | [], _ :: _, h => False.elim h
  | _ :: _, [], h => False.elim h

theorem all2_imp {α β : Type} {R S : α → β → Prop} (hi : ∀ a b, R a b → S a b) : ∀ {l : List α} {m : List β}, all2 R l m → all2 S l m
  | [], [], _ => trivial
  | _ :: _, _ :: _, h => ⟨hi _ _ h.1, all2_imp hi h.2⟩
  | [], _ :: _, h => False.elim h
  | _ :: _, [], h => False.elim h

theorem length_le_flatten {e : Bytes} {es : List Bytes} (h : e ∈ es) : e.length ≤ es.flatten.length := by
  induction es with
  | nil => cases h
  | cons a es ih =>
    rw [List.flatten_cons, List.length_append]
    rcases List.mem_cons.1 h with rfl | h
    · omega
    · have := ih h; omega

end FastBer.Ast
