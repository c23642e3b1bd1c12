import Verif.Proofs.RecursiveTy
/-! # Recursive types: what an element stands for, equality and validity of values -/
namespace FastBer
open Spec

variable {ι : Type} {σ σ' : ι → Ty}

mutual
theorem RTy.same_outer (h : ∀ n, (σ n).outer = (σ' n).outer) : (t : RTy ι) → (t.close σ).outer = (t.close σ').outer
  | .leaf _ _ => rfl
  | .seqOf _ _ => rfl
  | .seq _ _ => rfl
  | .set _ _ _ => rfl
  | .choice (.tagged _) _ => rfl
  | .choice (.untagged _) as => RAlts.same_outer h as
  | .ref n => h n
theorem RAlts.same_outer (h : ∀ n, (σ n).outer = (σ' n).outer) : (as : RAlts ι) → (as.close σ).outer = (as.close σ').outer
  | .nil => rfl
  | .cons _ t rest => by simp only [RAlts.close, Alts.outer, RTy.same_outer h t, RAlts.same_outer h rest]
end

theorem RFields.same_outer (h : ∀ n, (σ n).outer = (σ' n).outer) : (fs : RFields ι) → (fs.close σ).outer = (fs.close σ').outer
  | .nil => rfl
  | .cons _ _ t rest => by simp only [RFields.close, Fields.outer, RTy.same_outer h t, RFields.same_outer h rest]

/-! ## Reading -/

/-- The same values for elements of at most `M` bytes. -/
def SameReads (M : Nat) (t t' : Ty) : Prop := ∀ v, Parsed v → v.mem.length ≤ M → ∀ x, t.Reads v x ↔ t'.Reads v x

/-- An element of at most `M` bytes. -/
def Short (M : Nat) (v : BerView) : Prop := Parsed v ∧ v.mem.length ≤ M

theorem elements_short {bs : Bytes} {vs : List BerView} (h : Elements bs vs) : ∀ v ∈ vs, Short bs.length v := by
  induction h with
  | stop _ _ => exact fun _ h => nomatch h
  | step ha hv hr ih =>
    intro u hu
    rcases List.mem_cons.mp hu with rfl | hu
    · exact Parsed.of_assign ha
    · obtain ⟨h1, h2⟩ := ih u hu
      rw [List.length_drop] at h2
      exact ⟨h1, by omega⟩

theorem matches_content {v w : BerView} {id : Ident} {k : Construction} {bs : Bytes} (hp : Parsed v) (hm : Matches v id k w)
    (hc : w.content = .ok bs) : bs.length < v.mem.length := by
  obtain ⟨h1, h2⟩ := innerView_ok hp (innerView_of_matches hm)
  have := (h1.content hc).2 (matches_valid hm).2
  omega

theorem all2_reads {M : Nat} {t t' : Ty} (h : SameReads M t t') : ∀ (vs : List BerView) (xs : List Val), (∀ v ∈ vs, Short M v) →
    (all2 t.Reads vs xs ↔ all2 t'.Reads vs xs)
  | [], [], _ => Iff.rfl
  | [], _ :: _, _ => Iff.rfl
  | _ :: _, [], _ => Iff.rfl
  | v :: vs, x :: xs, hs => by
    have hv := hs v (by simp)
    simp only [all2, h v hv.1 hv.2, all2_reads h vs xs fun v hv => hs v (by simp [hv])]

theorem compReadsSeq_same {M : Nat} {t t' : Ty} (h : SameReads M t t') (ho : t.outer = t'.outer) (k : Kind) {vs : List BerView}
    (hs : ∀ v ∈ vs, Short M v) (x : Val) (rest : List BerView) :
    compReadsSeq k t.outer t.Reads vs x rest ↔ compReadsSeq k t'.outer t'.Reads vs x rest := by
  have h0 : ∀ v, vs = v :: rest → ∀ x, t.Reads v x ↔ t'.Reads v x := by
    rintro v rfl x
    have hv := hs v (by simp)
    exact h v hv.1 hv.2 x
  have hopt : ((x = .absent ∧ rest = vs ∧ ∀ v vs', vs = v :: vs' → hasId t'.outer v = false) ∨
      ∃ v x', vs = v :: rest ∧ hasId t'.outer v = true ∧ x = .present x' ∧ t.Reads v x') ↔
      ((x = .absent ∧ rest = vs ∧ ∀ v vs', vs = v :: vs' → hasId t'.outer v = false) ∨
      ∃ v x', vs = v :: rest ∧ hasId t'.outer v = true ∧ x = .present x' ∧ t'.Reads v x') := by
    refine or_congr Iff.rfl (exists_congr fun v => exists_congr fun x' => and_congr_right fun h1 => ?_)
    rw [h0 v h1]
  rw [ho]
  cases k with
  | mandatory => exact exists_congr fun v => and_congr_right fun h1 => h0 v h1 x
  | optional => exact hopt
  | default d => exact hopt

theorem compReadsSet_same {M : Nat} {t t' : Ty} (h : SameReads M t t') (k : Kind) {vs : List BerView}
    (hs : ∀ v ∈ vs, Short M v) (x : Val) :
    compReadsSet k t.Reads vs x ↔ compReadsSet k t'.Reads vs x := by
  have h0 : ∀ v, vs = [v] → ∀ x, t.Reads v x ↔ t'.Reads v x := by
    rintro v rfl x
    have hv := hs v (by simp)
    exact h v hv.1 hv.2 x
  have hopt : ((vs = [] ∧ x = .absent) ∨ ∃ v x', vs = [v] ∧ x = .present x' ∧ t.Reads v x') ↔
      ((vs = [] ∧ x = .absent) ∨ ∃ v x', vs = [v] ∧ x = .present x' ∧ t'.Reads v x') := by
    refine or_congr Iff.rfl (exists_congr fun v => exists_congr fun x' => and_congr_right fun h1 => ?_)
    rw [h0 v h1]
  cases k with
  | mandatory => exact exists_congr fun v => and_congr_right fun h1 => h0 v h1 x
  | optional => exact hopt
  | default d => exact hopt

theorem RFields.close_nil (fs : RFields ι) : fs.close σ = .nil ↔ fs.close σ' = .nil := by
  cases fs <;> simp [RFields.close]

mutual
theorem RTy.same_reads (ho : ∀ n, (σ n).outer = (σ' n).outer) : (t : RTy ι) → (M : Nat) →
    (∀ N, N < M → ∀ n, SameReads N (σ n) (σ' n)) → (∀ n ∈ t.heads, SameReads M (σ n) (σ' n)) → SameReads M (t.close σ) (t.close σ')
  | .leaf _ _, M, hs, hh => fun _ _ _ _ => Iff.rfl
  | .seqOf id t, M, hs, hh => by
    intro v hp hm x
    simp only [RTy.close, Ty.Reads]
    refine exists_congr fun w => exists_congr fun bs => exists_congr fun vs => exists_congr fun xs => and_congr_right fun h1 =>
      and_congr_right fun h2 => and_congr_right fun h3 => and_congr_right fun _ => ?_
    have hlt := matches_content hp h1 h2
    exact all2_reads (RTy.same_reads ho t bs.length (fun N hN => hs N (by omega)) fun n _ => hs bs.length (by omega) n) vs xs (elements_short h3)
  | .seq id fs, M, hs, hh => by
    intro v hp hm x
    simp only [RTy.close, Ty.Reads]
    refine exists_congr fun w => exists_congr fun bs => exists_congr fun vs => exists_congr fun xs => and_congr_right fun h1 =>
      and_congr_right fun h2 => and_congr_right fun h3 => and_congr_right fun _ => ?_
    have hlt := matches_content hp h1 h2
    exact RFields.same_readsSeq ho fs bs.length (fun N hN => hs N (by omega)) vs xs (elements_short h3)
  | .set id ext fs, M, hs, hh => by
    intro v hp hm x
    simp only [RTy.close, Ty.Reads]
    refine exists_congr fun w => exists_congr fun bs => exists_congr fun vs => exists_congr fun xs => and_congr_right fun h1 =>
      and_congr_right fun h2 => and_congr_right fun h3 => and_congr_right fun _ => ?_
    have hlt := matches_content hp h1 h2
    rw [RFields.same_readsSet ho fs bs.length (fun N hN => hs N (by omega)) vs xs (elements_short h3), RFields.same_outer ho fs,
      RFields.close_nil (σ := σ) (σ' := σ') fs]
  | .choice (.untagged ids) as, M, hs, hh => by
    intro v hp hm x
    simp only [RTy.close, Ty.Reads]
    refine exists_congr fun i => exists_congr fun y => and_congr_right fun _ => ?_
    exact RAlts.same_reads ho as M hs (fun n hn => hh n (by simpa [RTy.heads] using hn)) i v y ⟨hp, hm⟩
  | .choice (.tagged id) as, M, hs, hh => by
    intro v hp hm x
    simp only [RTy.close, Ty.Reads]
    refine exists_congr fun w => exists_congr fun bs => exists_congr fun u => exists_congr fun i => exists_congr fun y =>
      and_congr_right fun h1 => and_congr_right fun h2 => and_congr_right fun h3 => and_congr_right fun _ => and_congr_right fun _ => ?_
    have hlt := matches_content hp h1 h2
    exact RAlts.same_reads ho as bs.length (fun N hN => hs N (by omega)) (fun n _ => hs bs.length (by omega) n) i u y (Parsed.of_assign h3)
  | .ref n, M, hs, hh => hh n (by simp [RTy.heads])
theorem RFields.same_readsSeq (ho : ∀ n, (σ n).outer = (σ' n).outer) : (fs : RFields ι) → (M : Nat) →
    (∀ N, N ≤ M → ∀ n, SameReads N (σ n) (σ' n)) → ∀ vs xs, (∀ v ∈ vs, Short M v) →
    ((fs.close σ).ReadsSeq vs xs ↔ (fs.close σ').ReadsSeq vs xs)
  | .nil, M, hs => fun _ _ _ => Iff.rfl
  | .cons k l t rest, M, hs => fun vs xs hv => by
    simp only [RFields.close, Fields.ReadsSeq]
    refine exists_congr fun x => exists_congr fun xs' => exists_congr fun vs' => and_congr_right fun _ => ?_
    rw [compReadsSeq_same (RTy.same_reads ho t M (fun N hN => hs N (by omega)) fun n _ => hs M (Nat.le_refl _) n) (RTy.same_outer ho t) k hv x vs']
    refine and_congr_right fun hc => RFields.same_readsSeq ho rest M hs vs' xs' fun u hu => hv u ?_
    have hopt : ∀ {P Q : Prop}, ((P ∧ vs' = vs ∧ Q) ∨ ∃ v x', vs = v :: vs' ∧ hasId (t.close σ').outer v = true ∧ x = .present x' ∧
        (t.close σ').Reads v x') → u ∈ vs := by
      rintro P Q (⟨_, h, _⟩ | ⟨v, x', h, _⟩)
      · rw [← h]; exact hu
      · rw [h]; simp [hu]
    cases k with
    | mandatory => obtain ⟨v, h, _⟩ := hc; rw [h]; simp [hu]
    | optional => exact hopt hc
    | default d => exact hopt hc
theorem RFields.same_readsSet (ho : ∀ n, (σ n).outer = (σ' n).outer) : (fs : RFields ι) → (M : Nat) →
    (∀ N, N ≤ M → ∀ n, SameReads N (σ n) (σ' n)) → ∀ vs xs, (∀ v ∈ vs, Short M v) →
    ((fs.close σ).ReadsSet vs xs ↔ (fs.close σ').ReadsSet vs xs)
  | .nil, M, hs => fun _ _ _ => Iff.rfl
  | .cons k l t rest, M, hs => fun vs xs hv => by
    simp only [RFields.close, Fields.ReadsSet]
    refine exists_congr fun x => exists_congr fun xs' => and_congr_right fun _ => ?_
    rw [RTy.same_outer ho t, compReadsSet_same (RTy.same_reads ho t M (fun N hN => hs N (by omega)) fun n _ => hs M (Nat.le_refl _) n) k
      (fun v h => hv v (List.mem_filter.mp h).1) x, RFields.same_readsSet ho rest M hs vs xs' hv]
theorem RAlts.same_reads (ho : ∀ n, (σ n).outer = (σ' n).outer) : (as : RAlts ι) → (M : Nat) →
    (∀ N, N < M → ∀ n, SameReads N (σ n) (σ' n)) → (∀ n ∈ as.heads, SameReads M (σ n) (σ' n)) → ∀ i v x, Short M v →
    ((as.close σ).Reads i v x ↔ (as.close σ').Reads i v x)
  | .nil, M, hs, hh => fun _ _ _ _ => Iff.rfl
  | .cons l t rest, M, hs, hh => fun i v x hv => by
    simp only [RAlts.close, Alts.Reads]
    cases i with
    | zero => exact RTy.same_reads ho t M hs (fun n hn => hh n (by simp [RAlts.heads, hn])) v hv.1 hv.2 x
    | succ i => exact RAlts.same_reads ho rest M hs (fun n hn => hh n (by simp [RAlts.heads, hn])) i v x hv
end

/-! ## A larger unfolding reads more -/

/-- Whatever the first reads the second reads. -/
def ReadsLe (t t' : Ty) : Prop := ∀ v x, t.Reads v x → t'.Reads v x

theorem all2_mono {α β : Type} {R S : α → β → Prop} (h : ∀ a b, R a b → S a b) : ∀ (as : List α) (bs : List β), all2 R as bs → all2 S as bs
  | [], [], _ => trivial
  | [], _ :: _, h' => h'.elim
  | _ :: _, [], h' => h'.elim
  | _ :: as, _ :: bs, h' => ⟨h _ _ h'.1, all2_mono h as bs h'.2⟩

theorem compReadsSeq_mono {t t' : Ty} (h : ReadsLe t t') (ho : t.outer = t'.outer) (k : Kind) {vs : List BerView} {x : Val}
    {rest : List BerView} (hr : compReadsSeq k t.outer t.Reads vs x rest) : compReadsSeq k t'.outer t'.Reads vs x rest := by
  have hopt : ((x = .absent ∧ rest = vs ∧ ∀ v vs', vs = v :: vs' → hasId t'.outer v = false) ∨
      ∃ v x', vs = v :: rest ∧ hasId t'.outer v = true ∧ x = .present x' ∧ t.Reads v x') →
      ((x = .absent ∧ rest = vs ∧ ∀ v vs', vs = v :: vs' → hasId t'.outer v = false) ∨
      ∃ v x', vs = v :: rest ∧ hasId t'.outer v = true ∧ x = .present x' ∧ t'.Reads v x') :=
    Or.imp_right fun ⟨v, x', h1, h2, h3, h4⟩ => ⟨v, x', h1, h2, h3, h _ _ h4⟩
  rw [ho] at hr
  cases k with
  | mandatory => obtain ⟨v, h1, h2⟩ := hr; exact ⟨v, h1, h _ _ h2⟩
  | optional => exact hopt hr
  | default d => exact hopt hr

theorem compReadsSet_mono {t t' : Ty} (h : ReadsLe t t') (k : Kind) {vs : List BerView} {x : Val}
    (hr : compReadsSet k t.Reads vs x) : compReadsSet k t'.Reads vs x := by
  have hopt : ((vs = [] ∧ x = .absent) ∨ ∃ v x', vs = [v] ∧ x = .present x' ∧ t.Reads v x') →
      ((vs = [] ∧ x = .absent) ∨ ∃ v x', vs = [v] ∧ x = .present x' ∧ t'.Reads v x') :=
    Or.imp_right fun ⟨v, x', h1, h2, h3⟩ => ⟨v, x', h1, h2, h _ _ h3⟩
  cases k with
  | mandatory => obtain ⟨v, h1, h2⟩ := hr; exact ⟨v, h1, h _ _ h2⟩
  | optional => exact hopt hr
  | default d => exact hopt hr

mutual
theorem RTy.reads_mono (ho : ∀ n, (σ n).outer = (σ' n).outer) (h : ∀ n, ReadsLe (σ n) (σ' n)) : (t : RTy ι) → ReadsLe (t.close σ) (t.close σ')
  | .leaf _ _ => fun _ _ h => h
  | .seqOf _ t => fun _ _ ⟨w, bs, vs, xs, h1, h2, h3, h4, h5⟩ => ⟨w, bs, vs, xs, h1, h2, h3, h4, all2_mono (RTy.reads_mono ho h t) vs xs h5⟩
  | .seq _ fs => fun _ _ ⟨w, bs, vs, xs, h1, h2, h3, h4, h5⟩ => ⟨w, bs, vs, xs, h1, h2, h3, h4, RFields.readsSeq_mono ho h fs vs xs h5⟩
  | .set _ ext fs => fun v x ⟨w, bs, vs, xs, h1, h2, h3, h4, h5, h6⟩ =>
    ⟨w, bs, vs, xs, h1, h2, h3, h4, RFields.readsSet_mono ho h fs vs xs h5, by
      rw [← RFields.same_outer ho fs, RFields.close_nil (σ := σ') (σ' := σ) fs]; exact h6⟩
  | .choice (.untagged _) as => fun v x hr => by
    simp only [RTy.close, Ty.Reads] at hr ⊢
    obtain ⟨i, y, h1, h2⟩ := hr
    exact ⟨i, y, h1, RAlts.reads_mono ho h as i v y h2⟩
  | .choice (.tagged _) as => fun v x hr => by
    simp only [RTy.close, Ty.Reads] at hr ⊢
    obtain ⟨w, bs, u, i, y, h1, h2, h3, h4, h5, h6⟩ := hr
    exact ⟨w, bs, u, i, y, h1, h2, h3, h4, h5, RAlts.reads_mono ho h as i u y h6⟩
  | .ref n => h n
theorem RFields.readsSeq_mono (ho : ∀ n, (σ n).outer = (σ' n).outer) (h : ∀ n, ReadsLe (σ n) (σ' n)) : (fs : RFields ι) →
    ∀ vs xs, (fs.close σ).ReadsSeq vs xs → (fs.close σ').ReadsSeq vs xs
  | .nil => fun _ _ h => h
  | .cons k _ t rest => fun _ _ ⟨x, xs', vs', h1, h2, h3⟩ =>
    ⟨x, xs', vs', h1, compReadsSeq_mono (RTy.reads_mono ho h t) (RTy.same_outer ho t) k h2, RFields.readsSeq_mono ho h rest vs' xs' h3⟩
theorem RFields.readsSet_mono (ho : ∀ n, (σ n).outer = (σ' n).outer) (h : ∀ n, ReadsLe (σ n) (σ' n)) : (fs : RFields ι) →
    ∀ vs xs, (fs.close σ).ReadsSet vs xs → (fs.close σ').ReadsSet vs xs
  | .nil => fun _ _ h => h
  | .cons k _ t rest => fun vs _ ⟨x, xs', h1, h2, h3⟩ =>
    ⟨x, xs', h1, compReadsSet_mono (RTy.reads_mono ho h t) k (by rw [← RTy.same_outer ho t]; exact h2), RFields.readsSet_mono ho h rest vs xs' h3⟩
theorem RAlts.reads_mono (ho : ∀ n, (σ n).outer = (σ' n).outer) (h : ∀ n, ReadsLe (σ n) (σ' n)) : (as : RAlts ι) →
    ∀ i v x, (as.close σ).Reads i v x → (as.close σ').Reads i v x
  | .nil => fun _ _ _ h => h
  | .cons _ t rest => fun i v x hr => by
    cases i with
    | zero => exact RTy.reads_mono ho h t v x hr
    | succ i => exact RAlts.reads_mono ho h rest i v x hr
end

/-! ## Valid values -/

def ValidLe (t t' : Ty) : Prop := ∀ x, t.Valid x → t'.Valid x

theorem compValid_mono {V V' : Val → Prop} (h : ∀ x, V x → V' x) (k : Kind) {x : Val} (hv : compValid V k x) : compValid V' k x := by
  cases k with
  | mandatory => exact h x hv
  | optional =>
    cases x with
    | present y => exact h y hv
    | _ => trivial
  | default d =>
    cases x with
    | present y => exact h y hv
    | _ => trivial

mutual
theorem RTy.valid_mono (h : ∀ n, ValidLe (σ n) (σ' n)) : (t : RTy ι) → ValidLe (t.close σ) (t.close σ')
  | .leaf _ _ => fun _ h => h
  | .seqOf _ t => fun x hx => by
    cases x with
    | list xs => exact fun y hy => RTy.valid_mono h t y (hx y hy)
    | _ => trivial
  | .seq _ fs => fun x hx => by
    cases x with
    | struct xs => exact RFields.valid_mono h fs xs hx
    | _ => trivial
  | .set _ _ fs => fun x hx => by
    cases x with
    | struct xs => exact RFields.valid_mono h fs xs hx
    | _ => trivial
  | .choice _ as => fun x hx => by
    cases x with
    | alt i y => exact RAlts.valid_mono h as i y hx
    | _ => trivial
  | .ref n => h n
theorem RFields.valid_mono (h : ∀ n, ValidLe (σ n) (σ' n)) : (fs : RFields ι) → ∀ xs, (fs.close σ).Valid xs → (fs.close σ').Valid xs
  | .nil => fun _ h => h
  | .cons k _ t rest => fun xs hx => by
    cases xs with
    | nil => trivial
    | cons x xs => exact ⟨compValid_mono (RTy.valid_mono h t) k hx.1, RFields.valid_mono h rest xs hx.2⟩
theorem RAlts.valid_mono (h : ∀ n, ValidLe (σ n) (σ' n)) : (as : RAlts ι) → ∀ i x, (as.close σ).Valid i x → (as.close σ').Valid i x
  | .nil => fun _ _ h => h
  | .cons _ t rest => fun i x hx => by
    cases i with
    | zero => exact RTy.valid_mono h t x hx
    | succ i => exact RAlts.valid_mono h rest i x hx
end

theorem altsFor_valid {f : Id → Ty} (hf : ∀ i x, (f i).Valid x) : ∀ (l : List Id) (i : Nat) (x : Val), (altsFor f l).Valid i x
  | [], _, _ => trivial
  | j :: _, 0, x => hf j x
  | _ :: l, i + 1, x => altsFor_valid hf l i x

theorem choice_valid {cid : ChoiceIdent} {as : Alts} (h : ∀ i x, as.Valid i x) (x : Val) : (Ty.choice cid as).Valid x := by
  cases x with
  | alt i y => exact h i y
  | _ => trivial

theorem REnv.stub_valid {E : REnv ι} (n : ι) (x : Val) : (E.stub n).Valid x := by
  unfold REnv.stub
  split
  · exact choice_valid (altsFor_valid (f := fun i => .leaf .null (.single i)) (fun _ _ => trivial) _) x
  · trivial

theorem REnv.void_valid {E : REnv ι} (n : ι) (x : Val) : (E.void n).Valid x :=
  choice_valid (altsFor_valid (f := fun i => .choice (.tagged (.single i)) .nil) (fun _ y => choice_valid (as := .nil) (fun _ _ => trivial) y) _) x

theorem REnv.valid_stub {E : REnv ι} (k : Nat) (n : ι) : ValidLe (E.unfold E.void k n) (E.unfold E.stub k n) := by
  induction k generalizing n with
  | zero => exact fun x _ => REnv.stub_valid n x
  | succ k ih => exact RTy.valid_mono ih (E n)

theorem REnv.valid_void {E : REnv ι} (k : Nat) (n : ι) : ValidLe (E.unfold E.stub k n) (E.unfold E.void k n) := by
  induction k generalizing n with
  | zero => exact fun x _ => REnv.void_valid n x
  | succ k ih => exact RTy.valid_mono ih (E n)

/-! ## Equal values -/

/-- The same comparison of values of size at most `M`. -/
def SameSame (M : Nat) (t t' : Ty) : Prop := ∀ x y, sizeOf x ≤ M → sizeOf y ≤ M → (t.Same x y ↔ t'.Same x y)

theorem all2_same {M : Nat} {t t' : Ty} (h : SameSame M t t') : ∀ (xs ys : List Val), (∀ x ∈ xs, sizeOf x ≤ M) → (∀ y ∈ ys, sizeOf y ≤ M) →
    (all2 t.Same xs ys ↔ all2 t'.Same xs ys)
  | [], [], _, _ => Iff.rfl
  | [], _ :: _, _, _ => Iff.rfl
  | _ :: _, [], _, _ => Iff.rfl
  | x :: xs, y :: ys, hx, hy => by
    simp only [all2, h x y (hx x (by simp)) (hy y (by simp)),
      all2_same h xs ys (fun x hm => hx x (by simp [hm])) (fun y hm => hy y (by simp [hm]))]

theorem sizeOf_val {x : Val} {xs : List Val} {M : Nat} (h : x ∈ xs) (hs : sizeOf xs ≤ M) : sizeOf x ≤ M := by
  have := List.sizeOf_lt_of_mem h; omega

theorem compSame_same {M : Nat} {t t' : Ty} (h : SameSame M t t') (k : Kind) (hd : ∀ d, k = .default d → t = t') {x y : Val}
    (hx : sizeOf x ≤ M) (hy : sizeOf y ≤ M) : compSame t.Rep t.Same k x y ↔ compSame t'.Rep t'.Same k x y := by
  cases k with
  | mandatory => exact h x y hx hy
  | optional =>
    cases x with
    | present a =>
      cases y with
      | present b =>
        simp only [Val.present.sizeOf_spec] at hx hy
        exact h a b (by omega) (by omega)
      | _ => exact Iff.rfl
    | _ => cases y <;> exact Iff.rfl
  | default d => rw [hd d rfl]

mutual
theorem RTy.same_same {M : Nat} (h : ∀ n, SameSame M (σ n) (σ' n)) : (t : RTy ι) → t.Defaults →
    SameSame M (t.close σ) (t.close σ') ∧ ((∀ n, t ≠ .ref n) → SameSame (M + 1) (t.close σ) (t.close σ'))
  | .leaf k id, _ => ⟨fun _ _ _ _ => Iff.rfl, fun _ _ _ _ _ => Iff.rfl⟩
  | .seqOf id t, hd => by
    have : SameSame (M + 1) ((RTy.seqOf id t).close σ) ((RTy.seqOf id t).close σ') := by
      intro x y hx hy
      cases x with
      | list xs =>
        cases y with
        | list ys =>
          simp only [Val.list.sizeOf_spec] at hx hy
          exact all2_same (RTy.same_same h t hd).1 xs ys (fun x hm => sizeOf_val hm (by omega)) (fun y hm => sizeOf_val hm (by omega))
        | _ => exact Iff.rfl
      | _ => cases y <;> exact Iff.rfl
    exact ⟨fun x y hx hy => this x y (by omega) (by omega), fun _ => this⟩
  | .seq id fs, hd => by
    have : SameSame (M + 1) ((RTy.seq id fs).close σ) ((RTy.seq id fs).close σ') := by
      intro x y hx hy
      cases x with
      | struct xs =>
        cases y with
        | struct ys =>
          simp only [Val.struct.sizeOf_spec] at hx hy
          exact RFields.same_same h fs hd xs ys (fun x hm => sizeOf_val hm (by omega)) (fun y hm => sizeOf_val hm (by omega))
        | _ => exact Iff.rfl
      | _ => cases y <;> exact Iff.rfl
    exact ⟨fun x y hx hy => this x y (by omega) (by omega), fun _ => this⟩
  | .set id ext fs, hd => by
    have : SameSame (M + 1) ((RTy.set id ext fs).close σ) ((RTy.set id ext fs).close σ') := by
      intro x y hx hy
      cases x with
      | struct xs =>
        cases y with
        | struct ys =>
          simp only [Val.struct.sizeOf_spec] at hx hy
          exact RFields.same_same h fs hd xs ys (fun x hm => sizeOf_val hm (by omega)) (fun y hm => sizeOf_val hm (by omega))
        | _ => exact Iff.rfl
      | _ => cases y <;> exact Iff.rfl
    exact ⟨fun x y hx hy => this x y (by omega) (by omega), fun _ => this⟩
  | .choice id as, hd => by
    have : SameSame (M + 1) ((RTy.choice id as).close σ) ((RTy.choice id as).close σ') := by
      intro x y hx hy
      cases x with
      | alt i a =>
        cases y with
        | alt j b =>
          simp only [Val.alt.sizeOf_spec] at hx hy
          simp only [RTy.close, Ty.Same, RAlts.same_same h as hd i a b (by omega) (by omega)]
        | _ => exact Iff.rfl
      | _ => cases y <;> exact Iff.rfl
    exact ⟨fun x y hx hy => this x y (by omega) (by omega), fun _ => this⟩
  | .ref n, _ => ⟨h n, fun hn => (hn n rfl).elim⟩
theorem RFields.same_same {M : Nat} (h : ∀ n, SameSame M (σ n) (σ' n)) : (fs : RFields ι) → fs.Defaults → ∀ xs ys,
    (∀ x ∈ xs, sizeOf x ≤ M) → (∀ y ∈ ys, sizeOf y ≤ M) → ((fs.close σ).Same xs ys ↔ (fs.close σ').Same xs ys)
  | .nil, _ => fun _ _ _ _ => Iff.rfl
  | .cons k l t rest, hd => fun xs ys hx hy => by
    cases xs with
    | nil => exact Iff.rfl
    | cons x xs =>
      cases ys with
      | nil => exact Iff.rfl
      | cons y ys =>
        simp only [RFields.close, Fields.Same]
        rw [compSame_same (RTy.same_same h t hd.1).1 k (fun d hk => ?_) (hx x (by simp)) (hy y (by simp)),
          RFields.same_same h rest hd.2.2 xs ys (fun x hm => hx x (by simp [hm])) (fun y hm => hy y (by simp [hm]))]
        have := hd.2.1
        rw [hk] at this
        exact RTy.ground_close t this
theorem RAlts.same_same {M : Nat} (h : ∀ n, SameSame M (σ n) (σ' n)) : (as : RAlts ι) → as.Defaults → ∀ i x y, sizeOf x ≤ M → sizeOf y ≤ M →
    ((as.close σ).Same i x y ↔ (as.close σ').Same i x y)
  | .nil, _ => fun _ _ _ _ _ => Iff.rfl
  | .cons l t rest, hd => fun i x y hx hy => by
    simp only [RAlts.close, Alts.Same]
    cases i with
    | zero => exact (RTy.same_same h t hd.1).1 x y hx hy
    | succ i => exact RAlts.same_same h rest hd.2 i x y hx hy
end

theorem REnv.same_same {E : REnv ι} (hp : ∀ n m, E n ≠ .ref m) (hd : ∀ n, (E n).Defaults) (b b' : ι → Ty) (M : Nat) :
    ∀ n k k', M ≤ k → M ≤ k' → SameSame M (E.unfold b k n) (E.unfold b' k' n) := by
  induction M with
  | zero =>
    intro n k k' _ _ x y hx
    have hpos : ∀ o : Val, 0 < sizeOf o := by intro o; cases o <;> simp <;> omega
    have := hpos x; omega
  | succ M ih =>
    intro n k k' hk hk'
    obtain ⟨k, rfl⟩ : ∃ j, k = j + 1 := ⟨k - 1, by omega⟩
    obtain ⟨k', rfl⟩ : ∃ j, k' = j + 1 := ⟨k' - 1, by omega⟩
    exact (RTy.same_same (fun m => ih m k k' (by omega) (by omega)) (E n) (hd n)).2 (hp n)

end FastBer
