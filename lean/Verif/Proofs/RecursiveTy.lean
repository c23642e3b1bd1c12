import Verif.Proofs.RecursiveEnc
/-! # Recursive types: finite unfoldings -/
namespace FastBer
open Spec

variable {ι : Type} {σ σ' : ι → Ty}

/-! ## The code of an unfolding -/

mutual
theorem RTy.close_codec : (t : RTy ι) → (t.close σ).codec = t.codec fun n => (σ n).codec
  | .leaf k id => rfl
  | .seqOf id t => by simp only [RTy.close, Ty.codec, RTy.codec, RTy.close_codec t]
  | .seq id fs => by simp only [RTy.close, Ty.codec, RTy.codec, RFields.close_fields fs]
  | .set id ext fs => by simp only [RTy.close, Ty.codec, RTy.codec, RFields.close_fields fs]
  | .choice id as => by simp only [RTy.close, Ty.codec, RTy.codec, RAlts.close_alts as]
  | .ref n => rfl
theorem RFields.close_fields : (fs : RFields ι) → (fs.close σ).fields = fs.fields fun n => (σ n).codec
  | .nil => rfl
  | .cons k l t rest => by simp only [RFields.close, Fields.fields, RFields.fields, RTy.close_codec t, RFields.close_fields rest]
theorem RAlts.close_alts : (as : RAlts ι) → (as.close σ).alts = as.alts fun n => (σ n).codec
  | .nil => rfl
  | .cons l t rest => by simp only [RAlts.close, Alts.alts, RAlts.alts, RTy.close_codec t, RAlts.close_alts rest]
end

theorem REnv.unfold_codec {E : REnv ι} (b : ι → Ty) (k : Nat) (n : ι) : (E.unfold b k n).codec = E.approx (fun m => (b m).codec) k n := by
  induction k generalizing n with
  | zero => rfl
  | succ k ih => simp only [REnv.unfold, REnv.approx, RTy.close_codec]; congr 1; exact funext ih

theorem REnv.unfold_add {E : REnv ι} (b : ι → Ty) (k j : Nat) : E.unfold b (k + j) = E.unfold (E.unfold b j) k := by
  induction k with
  | zero => simp [REnv.unfold]
  | succ k ih =>
    rw [show k + 1 + j = (k + j) + 1 by omega]
    simp only [REnv.unfold, ih]

mutual
theorem RTy.ground_close : (t : RTy ι) → t.Ground → t.close σ = t.close σ'
  | .leaf k id, _ => rfl
  | .seqOf id t, h => by simp only [RTy.close, RTy.ground_close t h]
  | .seq id fs, h => by simp only [RTy.close, RFields.ground_close fs h]
  | .set id ext fs, h => by simp only [RTy.close, RFields.ground_close fs h]
  | .choice id as, h => by simp only [RTy.close, RAlts.ground_close as h]
theorem RFields.ground_close : (fs : RFields ι) → fs.Ground → fs.close σ = fs.close σ'
  | .nil, _ => rfl
  | .cons k l t rest, h => by simp only [RFields.close, RTy.ground_close t h.1, RFields.ground_close rest h.2]
theorem RAlts.ground_close : (as : RAlts ι) → as.Ground → as.close σ = as.close σ'
  | .nil, _ => rfl
  | .cons l t rest, h => by simp only [RAlts.close, RTy.ground_close t h.1, RAlts.ground_close rest h.2]
end

/-! ## Values of objects -/

/-- The same values for objects of size at most `M`. -/
def SameRep (M : Nat) (t t' : Ty) : Prop := ∀ o, sizeOf o ≤ M → ∀ x e, t.Rep o x e ↔ t'.Rep o x e

theorem SameRep.mono {M N : Nat} {t t' : Ty} (h : SameRep M t t') (hn : N ≤ M) : SameRep N t t' := fun o ho => h o (by omega)

theorem all3_same {M : Nat} {t t' : Ty} (h : SameRep M t t') : ∀ (os : List Obj) (xs : List Val) (es : List Bytes), (∀ o ∈ os, sizeOf o ≤ M) →
    (all3 t.Rep os xs es ↔ all3 t'.Rep os xs es)
  | [], [], [], _ => Iff.rfl
  | [], [], _ :: _, _ => Iff.rfl
  | [], _ :: _, _, _ => Iff.rfl
  | _ :: _, [], _, _ => Iff.rfl
  | _ :: _, _ :: _, [], _ => Iff.rfl
  | o :: os, x :: xs, e :: es, hs => by
    simp only [all3, h o (hs o (by simp)), all3_same h os xs es fun o ho => hs o (by simp [ho])]

theorem comp_same {M : Nat} {t t' : Ty} (h : SameRep M t t') (k : Kind) {o : Obj} (ho : sizeOf o ≤ M) (x : Val) (e : Bytes) :
    compRep k t.Rep o x e ↔ compRep k t'.Rep o x e := by
  have hopt : ((o = .none ∧ x = .absent ∧ e = []) ∨ ∃ o' x', o = .some o' ∧ x = .present x' ∧ t.Rep o' x' e) ↔
      ((o = .none ∧ x = .absent ∧ e = []) ∨ ∃ o' x', o = .some o' ∧ x = .present x' ∧ t'.Rep o' x' e) := by
    refine or_congr Iff.rfl (exists_congr fun o' => exists_congr fun x' => ?_)
    constructor
    · rintro ⟨rfl, rfl, hr⟩
      simp only [Obj.some.sizeOf_spec] at ho
      exact ⟨rfl, rfl, (h o' (by omega) x' e).mp hr⟩
    · rintro ⟨rfl, rfl, hr⟩
      simp only [Obj.some.sizeOf_spec] at ho
      exact ⟨rfl, rfl, (h o' (by omega) x' e).mpr hr⟩
  cases k with
  | mandatory => exact h o ho x e
  | optional => exact hopt
  | default d => exact hopt

mutual
theorem RTy.same_rep {M : Nat} (h : ∀ n, SameRep M (σ n) (σ' n)) : (t : RTy ι) →
    SameRep M (t.close σ) (t.close σ') ∧ ((∀ n, t ≠ .ref n) → SameRep (M + 1) (t.close σ) (t.close σ'))
  | .leaf k id => ⟨fun _ _ _ _ => Iff.rfl, fun _ _ _ _ _ => Iff.rfl⟩
  | .seqOf id t => by
    have : SameRep (M + 1) ((RTy.seqOf id t).close σ) ((RTy.seqOf id t).close σ') := by
      intro o ho x e
      simp only [RTy.close, Ty.Rep]
      refine exists_congr fun os => exists_congr fun xs => exists_congr fun es => and_congr_right fun h1 => ?_
      subst h1
      simp only [Obj.list.sizeOf_spec] at ho
      rw [all3_same (RTy.same_rep h t).1 os xs es fun o hm => sizeOf_mem hm (by omega)]
    exact ⟨this.mono (by omega), fun _ => this⟩
  | .seq id fs => by
    have : SameRep (M + 1) ((RTy.seq id fs).close σ) ((RTy.seq id fs).close σ') := by
      intro o ho x e
      simp only [RTy.close, Ty.Rep]
      refine exists_congr fun os => exists_congr fun xs => exists_congr fun es => and_congr_right fun h1 => ?_
      subst h1
      simp only [Obj.struct.sizeOf_spec] at ho
      rw [RFields.same_rep h fs os xs es fun o hm => sizeOf_mem hm (by omega)]
    exact ⟨this.mono (by omega), fun _ => this⟩
  | .set id ext fs => by
    have : SameRep (M + 1) ((RTy.set id ext fs).close σ) ((RTy.set id ext fs).close σ') := by
      intro o ho x e
      simp only [RTy.close, Ty.Rep]
      refine exists_congr fun os => exists_congr fun xs => exists_congr fun es => and_congr_right fun h1 => ?_
      subst h1
      simp only [Obj.struct.sizeOf_spec] at ho
      rw [RFields.same_rep h fs os xs es fun o hm => sizeOf_mem hm (by omega)]
    exact ⟨this.mono (by omega), fun _ => this⟩
  | .choice id as => by
    have : SameRep (M + 1) ((RTy.choice id as).close σ) ((RTy.choice id as).close σ') := by
      intro o ho x e
      simp only [RTy.close, Ty.Rep]
      refine exists_congr fun i => exists_congr fun o' => exists_congr fun x' => exists_congr fun e' => and_congr_right fun h1 => ?_
      subst h1
      simp only [Obj.alt.sizeOf_spec] at ho
      rw [RAlts.same_rep h as i o' x' e' (by omega)]
    exact ⟨this.mono (by omega), fun _ => this⟩
  | .ref n => ⟨h n, fun hn => (hn n rfl).elim⟩
theorem RFields.same_rep {M : Nat} (h : ∀ n, SameRep M (σ n) (σ' n)) : (fs : RFields ι) → ∀ os xs es, (∀ o ∈ os, sizeOf o ≤ M) →
    ((fs.close σ).Rep os xs es ↔ (fs.close σ').Rep os xs es)
  | .nil => fun _ _ _ _ => Iff.rfl
  | .cons k l t rest => fun os xs es hs => by
    simp only [RFields.close, Fields.Rep]
    refine exists_congr fun o => exists_congr fun os' => exists_congr fun x => exists_congr fun xs' => exists_congr fun e =>
      exists_congr fun es' => and_congr_right fun h1 => ?_
    subst h1
    rw [comp_same (RTy.same_rep h t).1 k (hs o (by simp)) x e, RFields.same_rep h rest os' xs' es' fun o ho => hs o (by simp [ho])]
theorem RAlts.same_rep {M : Nat} (h : ∀ n, SameRep M (σ n) (σ' n)) : (as : RAlts ι) → ∀ i o x e, sizeOf o ≤ M →
    ((as.close σ).Rep i o x e ↔ (as.close σ').Rep i o x e)
  | .nil => fun _ _ _ _ _ => Iff.rfl
  | .cons l t rest => fun i o x e ho => by
    simp only [RAlts.close, Alts.Rep]
    cases i with
    | zero => exact (RTy.same_rep h t).1 o ho x e
    | succ i => exact RAlts.same_rep h rest i o x e ho
end

theorem REnv.same_rep {E : REnv ι} (hp : ∀ n m, E n ≠ .ref m) (b b' : ι → Ty) (M : Nat) :
    ∀ n k k', M ≤ k → M ≤ k' → SameRep M (E.unfold b k n) (E.unfold b' k' n) := by
  induction M with
  | zero =>
    intro n k k' _ _ o ho
    have hpos : ∀ o : Obj, 0 < sizeOf o := by intro o; cases o <;> simp <;> omega
    have := hpos o; omega
  | succ M ih =>
    intro n k k' hk hk'
    obtain ⟨k, rfl⟩ : ∃ j, k = j + 1 := ⟨k - 1, by omega⟩
    obtain ⟨k', rfl⟩ : ∃ j, k' = j + 1 := ⟨k' - 1, by omega⟩
    exact (RTy.same_rep (fun m => ih m k k' (by omega) (by omega)) (E n)).2 (hp n)

/-! ## A larger unfolding has more values -/

/-- Every value of the first is a value of the second. -/
def RepLe (t t' : Ty) : Prop := ∀ o x e, t.Rep o x e → t'.Rep o x e

theorem all3_mono {α β γ : Type} {R S : α → β → γ → Prop} (h : ∀ a b c, R a b c → S a b c) : ∀ (as : List α) (bs : List β) (cs : List γ),
    all3 R as bs cs → all3 S as bs cs
  | [], [], [], _ => trivial
  | [], [], _ :: _, h' => h'.elim
  | [], _ :: _, _, h' => h'.elim
  | _ :: _, [], _, h' => h'.elim
  | _ :: _, _ :: _, [], h' => h'.elim
  | _ :: as, _ :: bs, _ :: cs, h' => ⟨h _ _ _ h'.1, all3_mono h as bs cs h'.2⟩

theorem comp_mono {R S : Obj → Val → Bytes → Prop} (h : ∀ a b c, R a b c → S a b c) (k : Kind) {o : Obj} {x : Val} {e : Bytes}
    (hr : compRep k R o x e) : compRep k S o x e := by
  have hopt : ((o = .none ∧ x = .absent ∧ e = []) ∨ ∃ o' x', o = .some o' ∧ x = .present x' ∧ R o' x' e) →
      ((o = .none ∧ x = .absent ∧ e = []) ∨ ∃ o' x', o = .some o' ∧ x = .present x' ∧ S o' x' e) :=
    Or.imp_right fun ⟨o', x', h1, h2, h3⟩ => ⟨o', x', h1, h2, h _ _ _ h3⟩
  cases k with
  | mandatory => exact h _ _ _ hr
  | optional => exact hopt hr
  | default d => exact hopt hr

mutual
theorem RTy.rep_mono (h : ∀ n, RepLe (σ n) (σ' n)) : (t : RTy ι) → RepLe (t.close σ) (t.close σ')
  | .leaf k id => fun _ _ _ h => h
  | .seqOf id t => fun o x e ⟨os, xs, es, h1, h2, h3, h4⟩ =>
    ⟨os, xs, es, h1, h2, h3, all3_mono (RTy.rep_mono h t) os xs es h4⟩
  | .seq id fs => fun o x e ⟨os, xs, es, h1, h2, h3, h4⟩ => ⟨os, xs, es, h1, h2, h3, RFields.rep_mono h fs os xs es h4⟩
  | .set id ext fs => fun o x e ⟨os, xs, es, h1, h2, h3, h4⟩ => ⟨os, xs, es, h1, h2, h3, RFields.rep_mono h fs os xs es h4⟩
  | .choice id as => fun o x e ⟨i, o', x', e', h1, h2, h3, h4⟩ => ⟨i, o', x', e', h1, h2, RAlts.rep_mono h as i o' x' e' h3, h4⟩
  | .ref n => h n
theorem RFields.rep_mono (h : ∀ n, RepLe (σ n) (σ' n)) : (fs : RFields ι) → ∀ os xs es, (fs.close σ).Rep os xs es → (fs.close σ').Rep os xs es
  | .nil => fun _ _ _ h => h
  | .cons k l t rest => fun os xs es ⟨o, os', x, xs', e, es', h1, h2, h3, h4, h5⟩ =>
    ⟨o, os', x, xs', e, es', h1, h2, h3, comp_mono (RTy.rep_mono h t) k h4, RFields.rep_mono h rest os' xs' es' h5⟩
theorem RAlts.rep_mono (h : ∀ n, RepLe (σ n) (σ' n)) : (as : RAlts ι) → ∀ i o x e, (as.close σ).Rep i o x e → (as.close σ').Rep i o x e
  | .nil => fun _ _ _ _ h => h
  | .cons l t rest => fun i o x e hr => by
    cases i with
    | zero => exact RTy.rep_mono h t o x e hr
    | succ i => exact RAlts.rep_mono h rest i o x e hr
end

theorem altsFor_rep {f : Id → Ty} (hf : ∀ i o x e, ¬ (f i).Rep o x e) : ∀ (l : List Id) (i : Nat) (o : Obj) (x : Val) (e : Bytes),
    ¬ (altsFor f l).Rep i o x e
  | [], _, _, _, _ => id
  | j :: l, 0, o, x, e => hf j o x e
  | j :: l, i + 1, o, x, e => altsFor_rep hf l i o x e

/-- The base of the unfoldings has no values. -/
theorem REnv.void_rep {E : REnv ι} (n : ι) (o : Obj) (x : Val) (e : Bytes) : ¬ (E.void n).Rep o x e := by
  rintro ⟨i, o', x', e', _, _, h, _⟩
  refine altsFor_rep (fun j o x e => ?_) _ i o' x' e' h
  rintro ⟨i, o', x', e', _, _, h, _⟩
  exact h

theorem REnv.void_le {E : REnv ι} (b : ι → Ty) (k : Nat) (n : ι) : RepLe (E.unfold E.void k n) (E.unfold b k n) := by
  induction k generalizing n with
  | zero => exact fun o x e h => (REnv.void_rep n o x e h).elim
  | succ k ih => exact RTy.rep_mono ih (E n)

/-- A value is a value of every larger unfolding, whatever is at the bottom. -/
theorem REnv.Rep.unfold {E : REnv ι} {n : ι} {o : Obj} {x : Val} {e : Bytes} (h : E.Rep n o x e) (b : ι → Ty) :
    ∃ K, ∀ k, K ≤ k → (E.unfold b k n).Rep o x e := by
  obtain ⟨K, h⟩ := h
  refine ⟨K, fun k hk => ?_⟩
  obtain ⟨j, rfl⟩ := Nat.exists_eq_add_of_le hk
  rw [REnv.unfold_add]
  exact REnv.void_le _ K n o x e h

/-- A value of a large enough unfolding is a value. -/
theorem REnv.rep_of_unfold {E : REnv ι} (hp : ∀ n m, E n ≠ .ref m) {b : ι → Ty} {k : Nat} {n : ι} {o : Obj} (hk : sizeOf o ≤ k) {x : Val} {e : Bytes}
    (h : (E.unfold b k n).Rep o x e) : E.Rep n o x e :=
  ⟨k, (REnv.same_rep hp b E.void (sizeOf o) n k k hk hk o (Nat.le_refl _) x e).mp h⟩

end FastBer
