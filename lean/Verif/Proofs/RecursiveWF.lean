import Verif.Proofs.RecursiveReads
/-! # Recursive types: legality of unfoldings from legality of the definitions -/
namespace FastBer
open Spec

variable {ι : Type} {σ σ' : ι → Ty}

/-! ## Identifiers of a legal type -/

theorem outer_ok {id : Ident} (h : identOk id) : idOk id.outer := by
  cases id with
  | single i => exact h
  | double o i => exact h.1

mutual
theorem Ty.wf_outer : (t : Ty) → t.WF → t.outer ≠ [] ∧ ∀ i ∈ t.outer, idOk i
  | .leaf _ id, h => ⟨by simp [Ty.outer], by simpa [Ty.outer] using outer_ok h⟩
  | .seqOf id _, h => ⟨by simp [Ty.outer], by simpa [Ty.outer] using outer_ok h.1⟩
  | .seq id _, h => ⟨by simp [Ty.outer], by simpa [Ty.outer] using outer_ok h.1⟩
  | .set id _ _, h => ⟨by simp [Ty.outer], by simpa [Ty.outer] using outer_ok h.1⟩
  | .choice (.tagged id) _, h => ⟨by simp [Ty.outer], by simpa [Ty.outer] using outer_ok h.1⟩
  | .choice (.untagged _) as, h => by
    have := Alts.wf_outer as h.2.1
    exact ⟨this.1 h.2.2, this.2⟩
theorem Alts.wf_outer : (as : Alts) → as.WF → (as ≠ .nil → as.outer ≠ []) ∧ ∀ i ∈ as.outer, idOk i
  | .nil, _ => ⟨fun h => (h rfl).elim, by simp [Alts.outer]⟩
  | .cons _ t rest, h => by
    have h1 := Ty.wf_outer t h.1
    have h2 := Alts.wf_outer rest h.2
    refine ⟨fun _ => by simp [Alts.outer, h1.1], fun i hi => ?_⟩
    simp only [Alts.outer, List.mem_append] at hi
    rcases hi with hi | hi
    · exact h1.2 i hi
    · exact h2.2 i hi
end

mutual
theorem Ty.unamb_outer : (t : Ty) → t.Unamb → t.outer.Pairwise fun i j => i.tag ≠ j.tag
  | .leaf _ id, _ => by simp [Ty.outer]
  | .seqOf id _, _ => by simp [Ty.outer]
  | .seq id _, _ => by simp [Ty.outer]
  | .set id _ _, _ => by simp [Ty.outer]
  | .choice (.tagged id) _, _ => by simp [Ty.outer]
  | .choice (.untagged _) as, h => (Alts.unamb_outer as h.1 h.2).1
theorem Alts.unamb_outer : (as : Alts) → as.Unamb → as.AllUnamb → (as.outer.Pairwise fun i j => i.tag ≠ j.tag) ∧ ∀ i, i ∈ as.labels ↔ i ∈ as.outer
  | .nil, _, _ => ⟨by simp [Alts.outer], fun _ => Iff.rfl⟩
  | .cons _ t rest, h, ha => by
    have h1 := Ty.unamb_outer t ha.1
    have h2 := Alts.unamb_outer rest h.2.2 ha.2
    refine ⟨?_, fun i => by simp only [Alts.labels, Alts.outer, List.mem_append, h.1 i, h2.2 i]⟩
    simp only [Alts.outer, List.pairwise_append]
    exact ⟨h1, h2.1, fun i hi j hj => h.2.1 i ((h.1 i).mpr hi) j ((h2.2 j).mpr hj)⟩
end

mutual
theorem Ty.proper_outer : (t : Ty) → t.Proper → t.outer.Pairwise (· ≠ ·)
  | .leaf _ id, _ => by simp [Ty.outer]
  | .seqOf id _, _ => by simp [Ty.outer]
  | .seq id _, _ => by simp [Ty.outer]
  | .set id _ _, _ => by simp [Ty.outer]
  | .choice (.tagged id) _, _ => by simp [Ty.outer]
  | .choice (.untagged _) as, h => (Alts.proper_outer as h.1 h.2).1
theorem Alts.proper_outer : (as : Alts) → as.Distinct → as.AllProper → (as.outer.Pairwise (· ≠ ·)) ∧ ∀ i, i ∈ as.labels ↔ i ∈ as.outer
  | .nil, _, _ => ⟨by simp [Alts.outer], fun _ => Iff.rfl⟩
  | .cons _ t rest, h, ha => by
    have h1 := Ty.proper_outer t ha.1
    have h2 := Alts.proper_outer rest h.2.2 ha.2
    refine ⟨?_, fun i => by simp only [Alts.labels, Alts.outer, List.mem_append, h.1 i, h2.2 i]⟩
    simp only [Alts.outer, List.pairwise_append]
    refine ⟨h1, h2.1, fun i hi j hj hij => h.2.1 i ((h.1 i).mpr hi) ((h2.2 i).mpr ?_)⟩
    rw [hij]; exact hj
end

/-! ## One level -/

theorem RAlts.close_nil (as : RAlts ι) : as.close σ = .nil ↔ as.close σ' = .nil := by
  cases as <;> simp [RAlts.close]

mutual
theorem RTy.wf_close (hw : ∀ n, (σ' n).WF) (ho : ∀ n, (σ n).outer = (σ' n).outer) : (t : RTy ι) → t.Defaults → (t.close σ).WF → (t.close σ').WF
  | .leaf _ _, _, h => h
  | .seqOf _ t, hd, h => ⟨h.1, RTy.wf_close hw ho t hd h.2⟩
  | .seq _ fs, hd, h => ⟨h.1, RFields.wf_close hw ho fs hd h.2⟩
  | .set _ _ fs, hd, h => ⟨h.1, RFields.wf_close hw ho fs hd h.2⟩
  | .choice (.tagged _) as, hd, h =>
    ⟨h.1, RAlts.wf_close hw ho as hd h.2.1, fun hn => h.2.2 ((RAlts.close_nil as).mp hn)⟩
  | .choice (.untagged _) as, hd, h =>
    ⟨by rw [← RAlts.same_outer ho as]; exact h.1, RAlts.wf_close hw ho as hd h.2.1, fun hn => h.2.2 ((RAlts.close_nil as).mp hn)⟩
  | .ref n, _, _ => hw n
theorem RFields.wf_close (hw : ∀ n, (σ' n).WF) (ho : ∀ n, (σ n).outer = (σ' n).outer) : (fs : RFields ι) → fs.Defaults → (fs.close σ).WF → (fs.close σ').WF
  | .nil, _, _ => trivial
  | .cons k _ t rest, hd, h => by
    refine ⟨RTy.wf_close hw ho t hd.1 h.1, ?_, RFields.wf_close hw ho rest hd.2.2 h.2.2⟩
    cases k with
    | mandatory => trivial
    | optional => trivial
    | default d =>
      have h1 := h.2.1
      have h2 : t.Ground := hd.2.1
      simp only at h1 ⊢
      rw [RTy.ground_close (σ' := σ) t h2]
      exact h1
theorem RAlts.wf_close (hw : ∀ n, (σ' n).WF) (ho : ∀ n, (σ n).outer = (σ' n).outer) : (as : RAlts ι) → as.Defaults → (as.close σ).WF → (as.close σ').WF
  | .nil, _, _ => trivial
  | .cons _ t rest, hd, h => ⟨RTy.wf_close hw ho t hd.1 h.1, RAlts.wf_close hw ho rest hd.2 h.2⟩
end

theorem RFields.same_firsts (ho : ∀ n, (σ n).outer = (σ' n).outer) : (fs : RFields ι) → (fs.close σ).firsts = (fs.close σ').firsts
  | .nil => rfl
  | .cons .mandatory _ t _ => RTy.same_outer ho t
  | .cons .optional _ t rest => by simp only [RFields.close, Fields.firsts, RTy.same_outer ho t, RFields.same_firsts ho rest]
  | .cons (.default _) _ t rest => by simp only [RFields.close, Fields.firsts, RTy.same_outer ho t, RFields.same_firsts ho rest]

theorem RFields.seqUnamb_close (ho : ∀ n, (σ n).outer = (σ' n).outer) : (fs : RFields ι) → (fs.close σ).SeqUnamb → (fs.close σ').SeqUnamb
  | .nil, _ => trivial
  | .cons .mandatory _ _ rest, h => RFields.seqUnamb_close ho rest h
  | .cons .optional _ t rest, h => ⟨by rw [← RTy.same_outer ho t]; exact h.1, by rw [← RFields.same_firsts ho rest]; exact h.2.1,
      RFields.seqUnamb_close ho rest h.2.2⟩
  | .cons (.default _) _ t rest, h => ⟨by rw [← RTy.same_outer ho t]; exact h.1, by rw [← RFields.same_firsts ho rest]; exact h.2.1,
      RFields.seqUnamb_close ho rest h.2.2⟩

theorem RFields.close_labels : (fs : RFields ι) → (fs.close σ).labels = (fs.close σ').labels
  | .nil => rfl
  | .cons _ _ _ rest => by simp only [RFields.close, Fields.labels, RFields.close_labels rest]

theorem RFields.setUnamb_close (ho : ∀ n, (σ n).outer = (σ' n).outer) : (fs : RFields ι) → (fs.close σ).SetUnamb → (fs.close σ').SetUnamb
  | .nil, _ => trivial
  | .cons _ _ t rest, h => ⟨by rw [← RTy.same_outer ho t]; exact h.1, by rw [← RFields.close_labels (σ := σ) rest]; exact h.2.1,
      RFields.setUnamb_close ho rest h.2.2⟩

theorem RAlts.close_labels : (as : RAlts ι) → (as.close σ).labels = (as.close σ').labels
  | .nil => rfl
  | .cons _ _ rest => by simp only [RAlts.close, Alts.labels, RAlts.close_labels rest]

theorem RAlts.unamb_close (ho : ∀ n, (σ n).outer = (σ' n).outer) : (as : RAlts ι) → (as.close σ).Unamb → (as.close σ').Unamb
  | .nil, _ => trivial
  | .cons _ t rest, h => ⟨by rw [← RTy.same_outer ho t]; exact h.1, by rw [← RAlts.close_labels (σ := σ) rest]; exact h.2.1,
      RAlts.unamb_close ho rest h.2.2⟩

theorem RAlts.distinct_close (ho : ∀ n, (σ n).outer = (σ' n).outer) : (as : RAlts ι) → (as.close σ).Distinct → (as.close σ').Distinct
  | .nil, _ => trivial
  | .cons _ t rest, h => ⟨by rw [← RTy.same_outer ho t]; exact h.1, by rw [← RAlts.close_labels (σ := σ) rest]; exact h.2.1,
      RAlts.distinct_close ho rest h.2.2⟩

mutual
theorem RTy.unamb_close (hu : ∀ n, (σ' n).Unamb) (ho : ∀ n, (σ n).outer = (σ' n).outer) : (t : RTy ι) → (t.close σ).Unamb → (t.close σ').Unamb
  | .leaf _ _, _ => trivial
  | .seqOf _ t, h => RTy.unamb_close hu ho t h
  | .seq _ fs, h => ⟨RFields.seqUnamb_close ho fs h.1, RFields.allUnamb_close hu ho fs h.2⟩
  | .set _ _ fs, h => ⟨RFields.setUnamb_close ho fs h.1, RFields.allUnamb_close hu ho fs h.2⟩
  | .choice _ as, h => ⟨RAlts.unamb_close ho as h.1, RAlts.allUnamb_close hu ho as h.2⟩
  | .ref n, _ => hu n
theorem RFields.allUnamb_close (hu : ∀ n, (σ' n).Unamb) (ho : ∀ n, (σ n).outer = (σ' n).outer) : (fs : RFields ι) → (fs.close σ).AllUnamb → (fs.close σ').AllUnamb
  | .nil, _ => trivial
  | .cons _ _ t rest, h => ⟨RTy.unamb_close hu ho t h.1, RFields.allUnamb_close hu ho rest h.2⟩
theorem RAlts.allUnamb_close (hu : ∀ n, (σ' n).Unamb) (ho : ∀ n, (σ n).outer = (σ' n).outer) : (as : RAlts ι) → (as.close σ).AllUnamb → (as.close σ').AllUnamb
  | .nil, _ => trivial
  | .cons _ t rest, h => ⟨RTy.unamb_close hu ho t h.1, RAlts.allUnamb_close hu ho rest h.2⟩
end

mutual
theorem RTy.proper_close (hu : ∀ n, (σ' n).Proper) (ho : ∀ n, (σ n).outer = (σ' n).outer) : (t : RTy ι) → (t.close σ).Proper → (t.close σ').Proper
  | .leaf _ _, _ => trivial
  | .seqOf _ t, h => RTy.proper_close hu ho t h
  | .seq _ fs, h => ⟨RFields.seqUnamb_close ho fs h.1, RFields.allProper_close hu ho fs h.2⟩
  | .set _ _ fs, h => ⟨RFields.setUnamb_close ho fs h.1, RFields.allProper_close hu ho fs h.2⟩
  | .choice _ as, h => ⟨RAlts.distinct_close ho as h.1, RAlts.allProper_close hu ho as h.2⟩
  | .ref n, _ => hu n
theorem RFields.allProper_close (hu : ∀ n, (σ' n).Proper) (ho : ∀ n, (σ n).outer = (σ' n).outer) : (fs : RFields ι) → (fs.close σ).AllProper → (fs.close σ').AllProper
  | .nil, _ => trivial
  | .cons _ _ t rest, h => ⟨RTy.proper_close hu ho t h.1, RFields.allProper_close hu ho rest h.2⟩
theorem RAlts.allProper_close (hu : ∀ n, (σ' n).Proper) (ho : ∀ n, (σ n).outer = (σ' n).outer) : (as : RAlts ι) → (as.close σ).AllProper → (as.close σ').AllProper
  | .nil, _ => trivial
  | .cons _ t rest, h => ⟨RTy.proper_close hu ho t h.1, RAlts.allProper_close hu ho rest h.2⟩
end

theorem RTy.untagged_close (hc : ∀ n, (σ n).isUntaggedChoice ↔ (σ' n).isUntaggedChoice) (t : RTy ι) :
    (t.close σ).isUntaggedChoice ↔ (t.close σ').isUntaggedChoice := by
  cases t with
  | choice cid as => cases cid <;> exact Iff.rfl
  | ref n => exact hc n
  | _ => exact Iff.rfl

mutual
theorem RTy.guarded_close (hg : ∀ n, (σ' n).Guarded) (hc : ∀ n, (σ n).isUntaggedChoice ↔ (σ' n).isUntaggedChoice) : (t : RTy ι) → (t.close σ).Guarded → (t.close σ').Guarded
  | .leaf _ _, _ => trivial
  | .seqOf _ t, h => RTy.guarded_close hg hc t h
  | .seq _ fs, h => RFields.seqGuarded_close hg hc fs h
  | .set _ _ fs, h => RFields.setGuarded_close hg hc fs h
  | .choice _ as, h => RAlts.guarded_close hg hc as h
  | .ref n, _ => hg n
theorem RFields.seqGuarded_close (hg : ∀ n, (σ' n).Guarded) (hc : ∀ n, (σ n).isUntaggedChoice ↔ (σ' n).isUntaggedChoice) : (fs : RFields ι) → (fs.close σ).SeqGuarded → (fs.close σ').SeqGuarded
  | .nil, _ => trivial
  | .cons k _ t rest, h => by
    refine ⟨RTy.guarded_close hg hc t h.1, ?_, RFields.seqGuarded_close hg hc rest h.2.2⟩
    cases k with
    | mandatory => exact fun hh => h.2.1 ((RTy.untagged_close hc t).mpr hh)
    | optional => trivial
    | default d => trivial
theorem RFields.setGuarded_close (hg : ∀ n, (σ' n).Guarded) (hc : ∀ n, (σ n).isUntaggedChoice ↔ (σ' n).isUntaggedChoice) : (fs : RFields ι) → (fs.close σ).SetGuarded → (fs.close σ').SetGuarded
  | .nil, _ => trivial
  | .cons _ _ t rest, h => ⟨RTy.guarded_close hg hc t h.1, RFields.setGuarded_close hg hc rest h.2⟩
theorem RAlts.guarded_close (hg : ∀ n, (σ' n).Guarded) (hc : ∀ n, (σ n).isUntaggedChoice ↔ (σ' n).isUntaggedChoice) : (as : RAlts ι) → (as.close σ).Guarded → (as.close σ').Guarded
  | .nil, _ => trivial
  | .cons _ t rest, h => ⟨RTy.guarded_close hg hc t h.1, RAlts.guarded_close hg hc rest h.2⟩
end

mutual
theorem RTy.leaves_close {P : Leaf → Prop} (hl : ∀ n, (σ' n).Leaves P) : (t : RTy ι) → (t.close σ).Leaves P → (t.close σ').Leaves P
  | .leaf _ _, h => h
  | .seqOf _ t, h => RTy.leaves_close hl t h
  | .seq _ fs, h => RFields.leaves_close hl fs h
  | .set _ _ fs, h => RFields.leaves_close hl fs h
  | .choice _ as, h => RAlts.leaves_close hl as h
  | .ref n, _ => hl n
theorem RFields.leaves_close {P : Leaf → Prop} (hl : ∀ n, (σ' n).Leaves P) : (fs : RFields ι) → (fs.close σ).Leaves P → (fs.close σ').Leaves P
  | .nil, _ => trivial
  | .cons _ _ t rest, h => ⟨RTy.leaves_close hl t h.1, RFields.leaves_close hl rest h.2⟩
theorem RAlts.leaves_close {P : Leaf → Prop} (hl : ∀ n, (σ' n).Leaves P) : (as : RAlts ι) → (as.close σ).Leaves P → (as.close σ').Leaves P
  | .nil, _ => trivial
  | .cons _ t rest, h => ⟨RTy.leaves_close hl t h.1, RAlts.leaves_close hl rest h.2⟩
end

/-! ## Stubs -/

theorem altsFor_outer {f : Id → Ty} (hf : ∀ i, (f i).outer = [i]) : ∀ (l : List Id), (altsFor f l).outer = l
  | [] => rfl
  | i :: l => by simp [altsFor, Alts.outer, hf i, altsFor_outer hf l]

theorem altsFor_labels (f : Id → Ty) : ∀ (l : List Id), (altsFor f l).labels = l
  | [] => rfl
  | i :: l => by simp [altsFor, Alts.labels, altsFor_labels f l]

theorem altsFor_wf : ∀ (l : List Id), (∀ i ∈ l, idOk i) → (altsFor (fun i => .leaf .null (.single i)) l).WF
  | [], _ => trivial
  | i :: l, h => ⟨h i (by simp), altsFor_wf l fun j hj => h j (by simp [hj])⟩

theorem altsFor_unamb : ∀ (l : List Id), (l.Pairwise fun i j => i.tag ≠ j.tag) → (altsFor (fun i => .leaf .null (.single i)) l).Unamb ∧
    (altsFor (fun i => .leaf .null (.single i)) l).AllUnamb
  | [], _ => ⟨trivial, trivial⟩
  | i :: l, h => by
    rw [List.pairwise_cons] at h
    have := altsFor_unamb l h.2
    refine ⟨⟨fun j => by simp [Ty.outer, Ident.outer], ?_, this.1⟩, ⟨trivial, this.2⟩⟩
    intro j hj k hk
    rw [altsFor_labels] at hk
    simp only [List.mem_singleton] at hj
    subst hj
    exact h.1 k hk

theorem altsFor_distinct : ∀ (l : List Id), (l.Pairwise (· ≠ ·)) → (altsFor (fun i => .leaf .null (.single i)) l).Distinct ∧
    (altsFor (fun i => .leaf .null (.single i)) l).AllProper
  | [], _ => ⟨trivial, trivial⟩
  | i :: l, h => by
    rw [List.pairwise_cons] at h
    have := altsFor_distinct l h.2
    refine ⟨⟨fun j => by simp [Ty.outer, Ident.outer], ?_, this.1⟩, ⟨trivial, this.2⟩⟩
    intro j hj hk
    rw [altsFor_labels] at hk
    simp only [List.mem_singleton] at hj
    subst hj
    exact h.1 j hk rfl

theorem altsFor_guarded : ∀ (l : List Id), (altsFor (fun i => .leaf .null (.single i)) l).Guarded
  | [] => trivial
  | _ :: l => ⟨trivial, altsFor_guarded l⟩

theorem altsFor_leaves {P : Leaf → Prop} (h : P .null) : ∀ (l : List Id), (altsFor (fun i => .leaf .null (.single i)) l).Leaves P
  | [] => trivial
  | _ :: l => ⟨h, altsFor_leaves h l⟩

/-- The stub is a NULL with the identifier of the type, or a CHOICE of NULLs with its identifiers. -/
theorem REnv.stub_cases (E : REnv ι) (hp : ∀ n m, E n ≠ .ref m) (n : ι) :
    (¬ (E.one n).isUntaggedChoice ∧ ∃ i, (E n).ids = [i] ∧ E.stub n = .leaf .null (.single i)) ∨
    ((E.one n).isUntaggedChoice ∧ E.stub n = .choice (.untagged (E n).ids) (altsFor (fun i => .leaf .null (.single i)) (E n).ids)) := by
  unfold REnv.one REnv.stub
  cases h : E n with
  | ref m => exact (hp n m h).elim
  | choice cid as =>
    cases cid with
    | untagged ids => exact .inr ⟨trivial, rfl⟩
    | tagged id => exact .inl ⟨id_of_false, _, rfl, rfl⟩
  | leaf k id => exact .inl ⟨id_of_false, _, rfl, rfl⟩
  | seqOf id t => exact .inl ⟨id_of_false, _, rfl, rfl⟩
  | seq id fs => exact .inl ⟨id_of_false, _, rfl, rfl⟩
  | set id ext fs => exact .inl ⟨id_of_false, _, rfl, rfl⟩
where id_of_false {p : Prop} (h : p) : p := h

/-! ## Unfoldings of legal definitions -/

section
variable {E : REnv ι}

theorem REnv.Ok.one_outer (h : E.Ok) (n : ι) : (E.one n).outer = (E n).ids := by
  have hw := h.wf n
  unfold REnv.one at hw ⊢
  cases hn : E n with
  | ref m => exact (h.proper n m hn).elim
  | choice cid as =>
    cases cid with
    | untagged ids => rw [hn] at hw; exact hw.1.symm
    | tagged id => rfl
  | _ => rfl

theorem REnv.Ok.ids_ok (h : E.Ok) (n : ι) : (E n).ids ≠ [] ∧ ∀ i ∈ (E n).ids, idOk i := by
  rw [← h.one_outer n]
  exact Ty.wf_outer _ (h.wf n)

theorem REnv.Ok.stub_outer (h : E.Ok) (n : ι) : (E.stub n).outer = (E n).ids := by
  rcases E.stub_cases h.proper n with ⟨_, i, h1, h2⟩ | ⟨_, h2⟩
  · rw [h2, h1]; rfl
  · rw [h2]; exact altsFor_outer (fun _ => rfl) _

theorem REnv.Ok.stub_ids (h : E.Ok) : E.Named fun n => (E.stub n).codec := by
  intro n
  rcases E.stub_cases h.proper n with ⟨_, i, h1, h2⟩ | ⟨_, h2⟩
  · show (E.stub n).codec.ids = _
    rw [h2, h1]; rfl
  · show (E.stub n).codec.ids = _
    rw [h2]; rfl

theorem REnv.Ok.stub_wf (h : E.Ok) (n : ι) : (E.stub n).WF := by
  have hi := h.ids_ok n
  rcases E.stub_cases h.proper n with ⟨_, i, h1, h2⟩ | ⟨_, h2⟩
  · rw [h2]
    exact hi.2 i (by simp [h1])
  · rw [h2]
    refine ⟨(altsFor_outer (fun _ => rfl) _).symm, altsFor_wf _ hi.2, fun hn => ?_⟩
    cases hl : (E n).ids with
    | nil => exact hi.1 hl
    | cons a l => rw [hl] at hn; exact nomatch hn

theorem REnv.stub_untagged (hp : ∀ n m, E n ≠ .ref m) (n : ι) : (E.stub n).isUntaggedChoice ↔ (E.one n).isUntaggedChoice := by
  rcases E.stub_cases hp n with ⟨h0, i, h1, h2⟩ | ⟨h0, h2⟩
  · rw [h2]; exact ⟨fun h => h.elim, fun h => (h0 h).elim⟩
  · rw [h2]; exact ⟨fun _ => h0, fun _ => trivial⟩

theorem REnv.stub_guarded (hp : ∀ n m, E n ≠ .ref m) (n : ι) : (E.stub n).Guarded := by
  rcases E.stub_cases hp n with ⟨h0, i, h1, h2⟩ | ⟨h0, h2⟩
  · rw [h2]; trivial
  · rw [h2]; exact altsFor_guarded _

theorem REnv.stub_leaves (hp : ∀ n m, E n ≠ .ref m) {P : Leaf → Prop} (hP : P .null) (n : ι) : (E.stub n).Leaves P := by
  rcases E.stub_cases hp n with ⟨h0, i, h1, h2⟩ | ⟨h0, h2⟩
  · rw [h2]; exact hP
  · rw [h2]; exact altsFor_leaves hP _

theorem REnv.Ok.stub_unamb (h : E.Ok) (hu : ∀ n, (E.one n).Unamb) (n : ι) : (E.stub n).Unamb := by
  rcases E.stub_cases h.proper n with ⟨h0, i, h1, h2⟩ | ⟨h0, h2⟩
  · rw [h2]; trivial
  · rw [h2]
    have := Ty.unamb_outer _ (hu n)
    rw [h.one_outer n] at this
    exact altsFor_unamb _ this

theorem REnv.Ok.stub_proper (h : E.Ok) (hu : ∀ n, (E.one n).Proper) (n : ι) : (E.stub n).Proper := by
  rcases E.stub_cases h.proper n with ⟨h0, i, h1, h2⟩ | ⟨h0, h2⟩
  · rw [h2]; trivial
  · rw [h2]
    have := Ty.proper_outer _ (hu n)
    rw [h.one_outer n] at this
    exact altsFor_distinct _ this

theorem REnv.Ok.unfold_outer (h : E.Ok) {b : ι → Ty} (hb : ∀ n, (b n).outer = (E n).ids) (k : Nat) (n : ι) : (E.unfold b k n).outer = (E n).ids := by
  induction k generalizing n with
  | zero => exact hb n
  | succ k ih =>
    rw [← h.one_outer n]
    exact RTy.same_outer (fun m => by rw [ih m, h.stub_outer m]) (E n)

theorem REnv.void_outer (n : ι) : (E.void n).outer = (E n).ids := altsFor_outer (fun _ => rfl) _

theorem REnv.Ok.unfold_wf (h : E.Ok) (k : Nat) (n : ι) : (E.unfold E.stub k n).WF := by
  induction k generalizing n with
  | zero => exact h.stub_wf n
  | succ k ih => exact RTy.wf_close ih (fun m => by rw [h.stub_outer m, h.unfold_outer h.stub_outer k m]) (E n) (h.defaults n) (h.wf n)

theorem REnv.Ok.unfold_unamb (h : E.Ok) (hu : ∀ n, (E.one n).Unamb) (k : Nat) (n : ι) : (E.unfold E.stub k n).Unamb := by
  induction k generalizing n with
  | zero => exact h.stub_unamb hu n
  | succ k ih => exact RTy.unamb_close ih (fun m => by rw [h.stub_outer m, h.unfold_outer h.stub_outer k m]) (E n) (hu n)

theorem REnv.Ok.unfold_proper (h : E.Ok) (hu : ∀ n, (E.one n).Proper) (k : Nat) (n : ι) : (E.unfold E.stub k n).Proper := by
  induction k generalizing n with
  | zero => exact h.stub_proper hu n
  | succ k ih => exact RTy.proper_close ih (fun m => by rw [h.stub_outer m, h.unfold_outer h.stub_outer k m]) (E n) (hu n)

theorem REnv.unfold_untagged (hp : ∀ n m, E n ≠ .ref m) (k : Nat) (n : ι) : (E.unfold E.stub k n).isUntaggedChoice ↔ (E.one n).isUntaggedChoice := by
  cases k with
  | zero => exact REnv.stub_untagged hp n
  | succ k =>
    simp only [REnv.unfold, REnv.one]
    cases hn : E n with
    | ref m => exact (hp n m hn).elim
    | choice cid as => cases cid <;> exact Iff.rfl
    | _ => exact Iff.rfl

theorem REnv.unfold_guarded (hp : ∀ n m, E n ≠ .ref m) (hg : ∀ n, (E.one n).Guarded) (k : Nat) (n : ι) : (E.unfold E.stub k n).Guarded := by
  induction k generalizing n with
  | zero => exact REnv.stub_guarded hp n
  | succ k ih =>
    exact RTy.guarded_close ih (fun m => (REnv.stub_untagged hp m).trans (REnv.unfold_untagged hp k m).symm) (E n) (hg n)

theorem REnv.unfold_leaves (hp : ∀ n m, E n ≠ .ref m) {P : Leaf → Prop} (hP : P .null) (hl : ∀ n, (E.one n).Leaves P) (k : Nat) (n : ι) :
    (E.unfold E.stub k n).Leaves P := by
  induction k generalizing n with
  | zero => exact REnv.stub_leaves hp hP n
  | succ k ih => exact RTy.leaves_close ih (E n) (hl n)

/-! ## The program and its unfoldings -/

/-- On a given number of bytes the recursive code does what the code of a large enough unfolding does. -/
theorem REnv.Ok.decode_eq (h : E.Ok) (n : ι) (M : Nat) : ∃ K, ∀ k, K ≤ k → ∀ k', K ≤ k' → ∀ bs : Bytes, bs.length ≤ M → ∀ o,
    E.decode n o bs k = (E.unfold E.stub k' n).decode o bs := by
  obtain ⟨K, hK⟩ := h.constructible
  obtain ⟨rank, R, hR, hrank⟩ := h.grounded
  refine ⟨REnv.bound K R M R, fun k hk k' hk' bs hbs o => ?_⟩
  unfold REnv.decode Ty.decode
  cases hp : BerView.parse bs with
  | ub => rfl
  | loop => rfl
  | ok v =>
    simp only [Exec.ok_bind]
    obtain ⟨h1, h2⟩ := Parsed.of_assign hp
    rw [REnv.unfold_codec]
    exact REnv.same_dec h.proper hK hR hrank (fun _ => rfl) h.stub_ids M R n (hR n) k k' hk hk' v h1 (by omega) o

theorem REnv.Ok.new_eq (h : E.Ok) : ∃ K, ∀ k, K ≤ k → ∀ n, E.new n k = (E.unfold E.stub k n).new ∧ E.new n k = E.new n K := by
  obtain ⟨K, hK⟩ := h.constructible
  refine ⟨K, fun k hk n => ?_⟩
  have h1 : E.new n k = E.new n K := REnv.init_eq hK _ hk n
  refine ⟨?_, h1⟩
  rw [h1, Ty.new, REnv.unfold_codec, REnv.init_eq hK _ hk n]

theorem REnv.Ok.encode_eq (h : E.Ok) (n : ι) {o : Obj} {k : Nat} (hk : sizeOf o ≤ k) :
    E.encodedLength n o k = (E.unfold E.stub k n).encodedLength o ∧
    ∀ buf, E.encode n o buf k = (E.unfold E.stub k n).encode o buf := by
  obtain ⟨h1, h2⟩ := (REnv.same_enc h.proper h.defaults (fun m => stuck (E m).ids) (fun m => (E.stub m).codec) (sizeOf o) n k k hk hk).1 o (Nat.le_refl _)
  unfold REnv.encodedLength REnv.encode Ty.encodedLength Ty.encode REnv.program
  rw [REnv.unfold_codec]
  exact ⟨h1, h2⟩

theorem REnv.Ok.equal_eq (h : E.Ok) (n : ι) {a b : Obj} {k : Nat} (ha : sizeOf a ≤ k) (hb : sizeOf b ≤ k) :
    E.equal n a b k = (E.unfold E.stub k n).equal a b := by
  have := (REnv.same_enc h.proper h.defaults (fun m => stuck (E m).ids) (fun m => (E.stub m).codec) k n k k (Nat.le_refl _) (Nat.le_refl _)).2 a b ha hb
  unfold REnv.equal Ty.equal REnv.program
  rw [REnv.unfold_codec]
  exact this

/-- Reading looks only as deep as the element is long. -/
theorem REnv.Ok.same_reads (h : E.Ok) {rank : ι → Nat} {R : Nat} (hR : ∀ n, rank n ≤ R) (hrank : ∀ n m, m ∈ (E n).heads → rank m < rank n)
    {b b' : ι → Ty} (hb : ∀ n, (b n).outer = (E n).ids) (hb' : ∀ n, (b' n).outer = (E n).ids) (M : Nat) :
    ∀ (r : Nat) (n : ι), rank n ≤ r → ∀ k k', REnv.bound 0 R M r ≤ k → REnv.bound 0 R M r ≤ k' →
    SameReads M (E.unfold b k n) (E.unfold b' k' n) := by
  induction M using Nat.strongRecOn with
  | ind M ihM =>
    intro r
    induction r using Nat.strongRecOn with
    | ind r ihr =>
      intro n hn k k' hk hk'
      unfold REnv.bound at hk hk'
      obtain ⟨k, rfl⟩ : ∃ j, k = j + 1 := ⟨k - 1, by omega⟩
      obtain ⟨k', rfl⟩ : ∃ j, k' = j + 1 := ⟨k' - 1, by omega⟩
      refine RTy.same_reads (fun m => by rw [h.unfold_outer hb, h.unfold_outer hb']) (E n) M ?_ ?_
      · intro N hN m
        have hmul : (N + 1) * (R + 1) ≤ M * (R + 1) := Nat.mul_le_mul_right _ (by omega)
        rw [Nat.add_mul] at hmul
        exact ihM N hN R m (hR m) k k' (by unfold REnv.bound; omega) (by unfold REnv.bound; omega)
      · intro m hm
        have := hrank n m hm
        exact ihr (rank m) (by omega) m (Nat.le_refl _) k k' (by unfold REnv.bound; omega) (by unfold REnv.bound; omega)

theorem REnv.void_reads (n : ι) (v : BerView) (x : Val) : ¬ (E.void n).Reads v x := by
  intro h
  simp only [REnv.void, Ty.Reads] at h
  obtain ⟨i, y, _, h⟩ := h
  suffices hs : ∀ (l : List Id) (i : Nat) (y : Val), ¬ (altsFor (fun i => .choice (.tagged (.single i)) .nil) l).Reads i v y from hs _ i y h
  intro l
  induction l with
  | nil => exact fun _ _ h => h
  | cons j l ih =>
    intro i y h
    cases i with
    | zero =>
      simp only [altsFor, Alts.Reads, Ty.Reads] at h
      obtain ⟨_, _, _, _, _, _, _, _, _, _, h⟩ := h
      exact h
    | succ i => exact ih i y h

theorem REnv.Ok.void_reads_le (h : E.Ok) {b : ι → Ty} (hb : ∀ n, (b n).outer = (E n).ids) (k : Nat) (n : ι) :
    ReadsLe (E.unfold E.void k n) (E.unfold b k n) := by
  induction k generalizing n with
  | zero => exact fun v x hr => (REnv.void_reads n v x hr).elim
  | succ k ih => exact RTy.reads_mono (fun m => by rw [h.unfold_outer REnv.void_outer, h.unfold_outer hb]) ih (E n)

/-- What the element stands for, in large enough unfoldings. -/
theorem REnv.Ok.reads_iff (h : E.Ok) (n : ι) (M : Nat) : ∃ K, ∀ k, K ≤ k → ∀ v, Parsed v → v.mem.length ≤ M → ∀ x,
    E.Reads n v x ↔ (E.unfold E.stub k n).Reads v x := by
  obtain ⟨rank, R, hR, hrank⟩ := h.grounded
  refine ⟨REnv.bound 0 R M R, fun k hk v hp hm x => ⟨?_, fun hr => ?_⟩⟩
  · rintro ⟨j, hr⟩
    have h1 := h.void_reads_le (b := E.unfold E.stub k) (fun m => h.unfold_outer h.stub_outer k m) j n v x hr
    rw [← REnv.unfold_add] at h1
    exact (h.same_reads hR hrank h.stub_outer h.stub_outer M R n (hR n) (j + k) k (by omega) hk v hp hm x).mp h1
  · exact ⟨k, (h.same_reads hR hrank h.stub_outer REnv.void_outer M R n (hR n) k k hk hk v hp hm x).mp hr⟩

theorem REnv.Valid.unfold {n : ι} {x : Val} (h : E.Valid n x) (k : Nat) : (E.unfold E.stub k n).Valid x := REnv.valid_stub k n x (h k)

theorem REnv.Ok.same_iff (h : E.Ok) (n : ι) (x y : Val) {k : Nat} (hx : sizeOf x ≤ k) (hy : sizeOf y ≤ k) :
    E.Same n x y ↔ (E.unfold E.stub k n).Same x y := by
  constructor
  · rintro ⟨K, hs⟩
    exact (REnv.same_same h.proper h.defaults E.void E.stub k n (max K k) k (by omega) (by omega) x y hx hy).mp (hs _ (by omega))
  · intro hs
    exact ⟨k, fun j hj => (REnv.same_same h.proper h.defaults E.stub E.void k n k j (Nat.le_refl _) hj x y hx hy).mp hs⟩

end

end FastBer
