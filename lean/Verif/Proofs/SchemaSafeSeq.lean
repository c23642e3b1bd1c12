import Verif.Proofs.SchemaSafe
/-! # Decoding arbitrary input: components, SEQUENCE -/
namespace FastBer
open Spec

/-! ## What is read carries the right identifier -/

theorem hasId_iff {l : List Id} {v : BerView} : hasId l v = true ↔ ∃ i, v.identifier = .ok i ∧ i ∈ l := by
  unfold hasId
  split
  · rename_i i hi
    rw [List.contains_iff_mem]
    exact ⟨fun h => ⟨i, hi, h⟩, fun ⟨j, h1, h2⟩ => by rw [hi] at h1; cases h1; exact h2⟩
  · rename_i hne
    simp only [Bool.false_eq_true, false_iff, not_exists, not_and]
    intro i hi
    exact (hne i hi).elim

theorem hasId_of {l : List Id} {v : BerView} {i : Id} (h : v.identifier = .ok i) : hasId l v = l.contains i := by
  simp [hasId, h]

mutual
theorem Ty.reads_outer : (t : Ty) → (v : BerView) → (x : Val) → t.Reads v x → v.valid = true → hasId t.outer v = true
  | .leaf k id, v, x, h, _ => by
    obtain ⟨w, c, c', hm, _⟩ := h
    exact hasId_iff.mpr ⟨_, matches_outer hm, by simp [Ty.outer]⟩
  | .seqOf id t, v, x, h, _ => by
    obtain ⟨w, c, c', _, hm, _⟩ := h
    exact hasId_iff.mpr ⟨_, matches_outer hm, by simp [Ty.outer]⟩
  | .seq id fs, v, x, h, _ => by
    obtain ⟨w, c, c', _, hm, _⟩ := h
    exact hasId_iff.mpr ⟨_, matches_outer hm, by simp [Ty.outer]⟩
  | .set id ext fs, v, x, h, _ => by
    obtain ⟨w, c, c', _, hm, _⟩ := h
    exact hasId_iff.mpr ⟨_, matches_outer hm, by simp [Ty.outer]⟩
  | .choice (.tagged id) as, v, x, h, _ => by
    simp only [Ty.Reads] at h
    obtain ⟨w, _, _, _, _, hm, _⟩ := h
    exact hasId_iff.mpr ⟨_, matches_outer hm, by simp [Ty.outer]⟩
  | .choice (.untagged ids) as, v, x, h, hv => by
    simp only [Ty.Reads] at h
    obtain ⟨i, y, rfl, h⟩ := h
    simpa [Ty.outer] using as.reads_outer i v y h hv
theorem Alts.reads_outer : (as : Alts) → (i : Nat) → (v : BerView) → (x : Val) → as.Reads i v x → v.valid = true →
    hasId as.outer v = true
  | .nil, i, v, x, h, _ => by simp [Alts.Reads] at h
  | .cons l t rest, 0, v, x, h, hv => by
    obtain ⟨j, h1, h2⟩ := hasId_iff.mp (t.reads_outer v x h hv)
    exact hasId_iff.mpr ⟨j, h1, by simp [Alts.outer, h2]⟩
  | .cons l t rest, i + 1, v, x, h, hv => by
    obtain ⟨j, h1, h2⟩ := hasId_iff.mp (rest.reads_outer i v x h hv)
    exact hasId_iff.mpr ⟨j, h1, by simp [Alts.outer, h2]⟩
end

/-! ## Components -/

theorem compReadsSeq_opt {k : Kind} (hk : k ≠ .mandatory) {ids : List Id} {R : BerView → Val → Prop}
    {vs : List BerView} {x : Val} {rest : List BerView} : compReadsSeq k ids R vs x rest ↔
      (x = .absent ∧ rest = vs ∧ ∀ v vs', vs = v :: vs' → hasId ids v = false) ∨
      ∃ v x', vs = v :: rest ∧ hasId ids v = true ∧ x = .present x' ∧ R v x' := by
  cases k with
  | mandatory => exact (hk rfl).elim
  | optional => exact Iff.rfl
  | default d => exact Iff.rfl

/-- The component read from one element. -/
def Comp.ReadsV (c : Comp) (v : BerView) (x : Val) : Prop :=
  match c.kind with
  | .mandatory => c.ty.Reads v x
  | _ => ∃ x', x = .present x' ∧ c.ty.Reads v x'

theorem Comp.readsV_opt {c : Comp} (hk : c.kind ≠ .mandatory) {v : BerView} {x : Val} :
    c.ReadsV v x ↔ ∃ x', x = .present x' ∧ c.ty.Reads v x' := by
  unfold Comp.ReadsV
  split
  · rename_i h; exact (hk h).elim
  · exact Iff.rfl

theorem Comp.valid_opt {c : Comp} (hk : c.kind ≠ .mandatory) : c.Valid .absent := by
  unfold Comp.Valid compValid
  split
  · rename_i h; exact (hk h).elim
  · trivial
  · trivial

def Comp.Accepted (c : Comp) (v : BerView) (o : Obj) : Prop :=
  ∃ x e i, c.Rep o x e ∧ c.Valid x ∧ e.length ≤ v.hdr + v.len ∧ v.valid = true ∧ v.identifier = .ok i ∧
    i ∈ c.ty.outer ∧ (c.ty.Proper → c.ReadsV v x)

theorem Comp.Accepted.holds {c : Comp} {v : BerView} {o : Obj} (h : c.Accepted v o) : c.Holds o := by
  obtain ⟨x, e, _, h, _⟩ := h; exact ⟨x, e, h⟩

theorem comp_dec {c : Comp} (ht : c.ty.EncLaws) (hd : c.ty.DecLaw) {v : BerView} (hs : SaneView v) (hp : Parsed v)
    (hg : c.kind ≠ .mandatory ∨ c.ty.isUntaggedChoice → v.valid = true) {o0 : Obj} (h0 : c.Holds o0) :
    ∃ r o', c.field.decode o0 v = .ok (r, o') ∧ c.Holds o' ∧ (r = true → c.Accepted v o') ∧
      (c.ty.Unamb → (∃ x, c.ReadsV v x) → r = true) := by
  by_cases hk : c.kind = .mandatory
  · have h0' : c.ty.Holds o0 := by
      obtain ⟨x, e, h⟩ := h0
      rcases comp_cases h with ⟨_, h⟩ | ⟨h, _⟩ | ⟨h, _⟩
      · exact ⟨x, e, h⟩
      · exact (h hk).elim
      · exact (h hk).elim
    obtain ⟨r, o', h1, ⟨x2, e2, h2⟩, h3, h4⟩ := hd hs hp (fun h => hg (.inr h)) h0'
    refine ⟨r, o', by rw [field_decode_mand hk]; exact h1, ⟨x2, e2, comp_mk_mand hk h2⟩, ?_, ?_⟩
    · intro hr
      obtain ⟨x, e, i, a1, a2, a3, a4, a5, a6, a7⟩ := h3 hr
      exact ⟨x, e, i, comp_mk_mand hk a1, by simpa [Comp.Valid, compValid, hk] using a2, a3, a4, a5, a6,
        fun hu => by simpa [Comp.ReadsV, hk] using a7 hu⟩
    · rintro hu ⟨x, hx⟩
      exact h4 hu ⟨x, by simpa [Comp.ReadsV, hk] using hx⟩
  · have hv := hg (.inl hk)
    obtain ⟨cl, hcl, hi⟩ := hs.identifier hv
    by_cases hm : (⟨cl, v.tag⟩ : Id) ∈ c.ty.codec.ids
    · obtain ⟨oi, xi, ei, h1, h2, _⟩ := ht.init
      obtain ⟨r, o', h3, ⟨x2, e2, h4⟩, h5, h6⟩ := hd hs hp (fun _ => hv) ⟨xi, ei, h2⟩
      refine ⟨r, .some o', ?_, ⟨.present x2, e2, comp_mk_some hk h4⟩, ?_, ?_⟩
      · rw [field_decode_opt hk o0 v hv hi hm]
        simp [h1, h3]
      · intro hr
        obtain ⟨x, e, i, a1, a2, a3, a4, a5, a6, a7⟩ := h5 hr
        refine ⟨.present x, e, i, comp_mk_some hk a1, ?_, a3, a4, a5, a6, fun hu => ?_⟩
        · cases hkk : c.kind <;> simp_all [Comp.Valid, compValid]
        · cases hkk : c.kind <;> simp_all [Comp.ReadsV]
      · rintro hu ⟨x, hx⟩
        refine h6 hu ?_
        cases hkk : c.kind <;> simp_all [Comp.ReadsV]
        all_goals (obtain ⟨x', _, hx'⟩ := hx; exact ⟨x', hx'⟩)
    · refine ⟨false, o0, ?_, h0, (fun h => nomatch h), ?_⟩
      · have hcon : c.ty.codec.ids.contains (⟨cl, v.tag⟩ : Id) = false := by simpa using hm
        cases hkk : c.kind with
        | mandatory => exact (hk hkk).elim
        | optional => simp only [Field.decode, Comp.field, hkk, hv, if_true, hcl, Exec.ok_bind, hcon]; rfl
        | default d => simp only [Field.decode, Comp.field, hkk, hv, if_true, hcl, Exec.ok_bind, hcon]; rfl
      · rintro hu ⟨x, hx⟩
        exfalso
        have : ∃ x', c.ty.Reads v x' := by
          cases hkk : c.kind <;> simp_all [Comp.ReadsV]
          all_goals (obtain ⟨x', _, hx'⟩ := hx; exact ⟨x', hx'⟩)
        obtain ⟨x', hx'⟩ := this
        obtain ⟨j, h1, h2⟩ := hasId_iff.mp (c.ty.reads_outer v x' hx' hv)
        rw [hi] at h1
        simp only [Exec.ok.injEq] at h1
        rw [ht.ids] at hm
        rw [← h1] at h2
        exact hm h2

/-! ## SEQUENCE -/

def compsReadsSeq : List Comp → List BerView → List Val → Prop
  | [], _, xs => xs = []
  | c :: cs, vs, xs => ∃ x xs' vs', xs = x :: xs' ∧ compReadsSeq c.kind c.ty.outer c.ty.Reads vs x vs' ∧
      compsReadsSeq cs vs' xs'

theorem Fields.readsSeq_iff : (fs : Fields) → (vs : List BerView) → (xs : List Val) →
    (fs.ReadsSeq vs xs ↔ compsReadsSeq fs.comps vs xs)
  | .nil, vs, xs => Iff.rfl
  | .cons k l t rest, vs, xs => by
    simp only [Fields.ReadsSeq, Fields.comps, compsReadsSeq, Fields.readsSeq_iff rest]

theorem iter_step {it : Iter} {tag0 : Int} {vs : List BerView} (hs : Sane it.buf)
    (ha : BerView.assign it.buf tag0 = .ok it.view) (hel : Elements it.buf vs) :
    SaneView it.view ∧ ((it.view.valid = false ∧ vs = []) ∨ (it.view.valid = true ∧ ∃ vs' it', vs = it.view :: vs' ∧
      it.next = .ok it' ∧ it'.buf = it.buf.drop (it.view.hdr + it.view.len) ∧ Sane it'.buf ∧
      BerView.assign it'.buf it.view.tag = .ok it'.view ∧ Elements it'.buf vs' ∧
      it.view.hdr + it.view.len ≤ it.buf.length)) := by
  obtain ⟨v, ha', hsv, hrest⟩ := hs.assign tag0
  rw [ha] at ha'
  simp only [Exec.ok.injEq] at ha'
  rw [← ha'] at hsv hrest
  refine ⟨hsv, ?_⟩
  cases hel with
  | stop hb hw =>
    obtain ⟨v', hc, hv'⟩ := assign_invalid_indep hb hw tag0
    rw [ha] at hc
    simp only [Exec.ok.injEq] at hc
    exact .inl ⟨by rw [hc]; exact hv', rfl⟩
  | @step _ u vs' hb hw hr =>
    have hc := assign_tag_indep hb hw tag0
    rw [ha] at hc
    simp only [Exec.ok.injEq] at hc
    subst hc
    obtain ⟨hm, hsr⟩ := hrest hw
    obtain ⟨_, hbd, _⟩ := hsv.bound hw
    rw [hm] at hbd
    obtain ⟨v2, h2, _⟩ := hsr.assign it.view.tag
    refine .inr ⟨hw, vs', ⟨it.buf.drop (it.view.hdr + it.view.len), v2⟩, rfl, ?_, rfl, hsr, h2, hr, hbd⟩
    rw [Iter.next, hsv.berLength, if_neg (by omega)]
    simp [h2]

theorem compsHold_mk {c : Comp} {cs : List Comp} {o : Obj} {os : List Obj} (h : c.Holds o) (h' : compsHold cs os) :
    compsHold (c :: cs) (o :: os) := by
  obtain ⟨x, e, h⟩ := h
  obtain ⟨xs, es, h'⟩ := h'
  exact ⟨x :: xs, e :: es, h, h'⟩

theorem decodeSeq_safe {cs : List Comp} (hcs : ∀ c ∈ cs, c.ty.EncLaws) (hds : ∀ c ∈ cs, c.ty.DecLaw)
    (hg : ∀ c ∈ cs, c.kind = .mandatory → ¬ c.ty.isUntaggedChoice) {U C : Prop}
    (hCU : C → U) (hC : C → ∀ c ∈ cs, c.ty.Unamb)
    (hU : U → ∀ c ∈ cs, c.ty.Proper ∧ (c.kind ≠ .mandatory → ∀ i, i ∈ c.labels ↔ i ∈ c.ty.outer))
    {os0 : List Obj} (h0 : compsHold cs os0) {it : Iter} {tag0 : Int} {vs : List BerView} (hs : Sane it.buf)
    (ha : BerView.assign it.buf tag0 = .ok it.view) (hel : Elements it.buf vs) :
    ∃ r os, decodeSeq (cs.map Comp.field) os0 it = .ok (r, os) ∧ compsHold cs os ∧
      (r = true → ∃ xs es, compsRep cs os xs es ∧ compsValid cs xs ∧ es.flatten.length ≤ it.buf.length ∧
        (U → compsReadsSeq cs vs xs)) ∧
      (C → (∃ xs, compsReadsSeq cs vs xs) → r = true) := by
  induction cs generalizing os0 it tag0 vs with
  | nil =>
    obtain ⟨xs, es, h⟩ := h0
    obtain ⟨rfl, rfl, rfl⟩ := compsRep_nil.mp h
    exact ⟨true, [], rfl, ⟨[], [], trivial⟩, fun _ => ⟨[], [], trivial, trivial, by simp, fun _ => rfl⟩, fun _ _ => rfl⟩
  | cons c cs ih =>
    obtain ⟨o, os, rfl, ho, hos⟩ := compsHold_cons h0
    have ihh := fun {os0} => @ih (fun c hc => hcs c (by simp [hc])) (fun c hc => hds c (by simp [hc]))
      (fun c hc => hg c (by simp [hc])) (fun u c hc => hC u c (by simp [hc])) (fun u c hc => hU u c (by simp [hc])) os0
    obtain ⟨hsv, hstep⟩ := iter_step hs ha hel
    have hp : Parsed it.view := ⟨_, _, ha⟩
    -- decoding the component from the current element
    have take : (c.kind = .mandatory ∨ it.view.valid = true) → (U → c.kind ≠ .mandatory → hasId c.ty.outer it.view = true) →
        ∃ r os', (do
          let r ← c.field.decode o it.view
          if !r.1 then .ok (false, r.2 :: os)
          else
            let it' ← it.next
            let s ← decodeSeq (cs.map Comp.field) os it'
            .ok (s.1, r.2 :: s.2) : Exec (Bool × List Obj)) = .ok (r, os') ∧ compsHold (c :: cs) os' ∧
        (r = true → ∃ xs es, compsRep (c :: cs) os' xs es ∧ compsValid (c :: cs) xs ∧ es.flatten.length ≤ it.buf.length ∧
          (U → compsReadsSeq (c :: cs) vs xs)) ∧
        (C → (∃ xs, compsReadsSeq (c :: cs) vs xs) → r = true) := by
      intro hval hid
      obtain ⟨r, o', h1, h2, h3, h4⟩ := comp_dec (hcs c (by simp)) (hds c (by simp)) hsv hp (by
        rintro (h | h)
        · exact hval.resolve_left h
        · rcases hval with h' | h'
          · exact (hg c (by simp) h' h).elim
          · exact h') ho
      -- what the specification says about this component
      have spec : U → ∀ xs, compsReadsSeq (c :: cs) vs xs → ∃ x xs' vs', vs = it.view :: vs' ∧ xs = x :: xs' ∧
          c.ReadsV it.view x ∧ compsReadsSeq cs vs' xs' := by
        rintro u xs ⟨x, xs', vs', rfl, hc, hr⟩
        have hvs : ∀ v w, vs = v :: w → v = it.view := by
          intro v w hvw
          rcases hstep with ⟨_, rfl⟩ | ⟨_, vs2, _, rfl, _⟩
          · cases hvw
          · simp at hvw; exact hvw.1.symm
        by_cases hk : c.kind = .mandatory
        · simp only [compReadsSeq, hk] at hc
          obtain ⟨v, rfl, hR⟩ := hc
          have := hvs v vs' rfl
          subst this
          exact ⟨x, xs', vs', rfl, rfl, by simpa [Comp.ReadsV, hk] using hR, hr⟩
        · have hc' := (compReadsSeq_opt hk).mp hc
          rcases hc' with ⟨rfl, rfl, hno⟩ | ⟨v, x', rfl, _, rfl, hR⟩
          · have hv := hval.resolve_left hk
            rcases hstep with ⟨h, _⟩ | ⟨_, vs2, _, rfl, _⟩
            · rw [hv] at h; cases h
            · have := hno it.view vs2 rfl
              rw [hid u hk] at this; cases this
          · have := hvs v vs' rfl
            subst this
            exact ⟨_, xs', vs', rfl, rfl, (Comp.readsV_opt hk).mpr ⟨x', rfl, hR⟩, hr⟩
      cases r with
      | false =>
        refine ⟨false, o' :: os, by simp [h1], compsHold_mk h2 hos, (fun h => nomatch h), ?_⟩
        rintro u ⟨xs, hx⟩
        obtain ⟨x, _, _, _, _, hR, _⟩ := spec (hCU u) xs hx
        exact h4 (hC u c (by simp)) ⟨x, hR⟩
      | true =>
        obtain ⟨x, e, i, a1, a2, a3, a4, a5, a6, a7⟩ := h3 rfl
        rcases hstep with ⟨h, _⟩ | ⟨_, vs', it', rfl, hn, hbuf, hsr, ha', hel', hbd⟩
        · rw [a4] at h; cases h
        obtain ⟨r2, os2, b1, b2, b3, b4⟩ := ihh hos hsr ha' hel'
        refine ⟨r2, o' :: os2, by simp [h1, hn, b1], compsHold_mk h2 b2, ?_, ?_⟩
        · intro hr
          obtain ⟨xs, es, c1, c2, c3, c4⟩ := b3 hr
          rw [hbuf, List.length_drop] at c3
          refine ⟨x :: xs, e :: es, ⟨a1, c1⟩, ⟨a2, c2⟩, by rw [List.flatten_cons, List.length_append]; omega, fun u => ?_⟩
          refine ⟨x, xs, vs', rfl, ?_, c4 u⟩
          have hRV := a7 (hU u c (by simp)).1
          have hido : hasId c.ty.outer it.view = true := hasId_iff.mpr ⟨i, a5, a6⟩
          by_cases hk : c.kind = .mandatory
          · simp only [Comp.ReadsV, hk] at hRV
            simp only [compReadsSeq, hk]
            exact ⟨it.view, rfl, hRV⟩
          · obtain ⟨x', rfl, hR⟩ := (Comp.readsV_opt hk).mp hRV
            exact (compReadsSeq_opt hk).mpr (.inr ⟨it.view, x', rfl, hido, rfl, hR⟩)
        · rintro u ⟨xs, hx⟩
          obtain ⟨x, xs', vs2, h5, _, _, hrest⟩ := spec (hCU u) xs hx
          simp only [List.cons.injEq, true_and] at h5
          subst h5
          exact b4 u ⟨xs', hrest⟩
    by_cases hk : c.kind = .mandatory
    · obtain ⟨r, os', h1, h2⟩ := take (.inl hk) (fun _ h => (h hk).elim)
      refine ⟨r, os', ?_, h2⟩
      rw [List.map_cons, decodeSeq, if_pos (isMandatory_iff.mpr hk)]
      exact h1
    · have hnm : c.field.isMandatory = false := by
        cases h : c.field.isMandatory with
        | false => rfl
        | true => exact (hk (isMandatory_iff.mp h)).elim
      -- the component is skipped
      have skip : (U → ∀ v vs', vs = v :: vs' → hasId c.ty.outer v = false) → ∃ r os', (do
            let s ← decodeSeq (cs.map Comp.field) os it
            .ok (s.1, .none :: s.2) : Exec (Bool × List Obj)) = .ok (r, os') ∧ compsHold (c :: cs) os' ∧
          (r = true → ∃ xs es, compsRep (c :: cs) os' xs es ∧ compsValid (c :: cs) xs ∧ es.flatten.length ≤ it.buf.length ∧
            (U → compsReadsSeq (c :: cs) vs xs)) ∧
          (C → (∃ xs, compsReadsSeq (c :: cs) vs xs) → r = true) := by
        intro hno
        obtain ⟨r2, os2, b1, b2, b3, b4⟩ := ihh hos hs ha hel
        have hnone : c.Rep .none .absent [] := comp_mk_none hk
        refine ⟨r2, .none :: os2, by simp [b1], compsHold_mk ⟨_, _, hnone⟩ b2, ?_, ?_⟩
        · intro hr
          obtain ⟨xs, es, c1, c2, c3, c4⟩ := b3 hr
          refine ⟨.absent :: xs, [] :: es, ⟨hnone, c1⟩, ⟨Comp.valid_opt hk, c2⟩, by simpa using c3, fun u => ?_⟩
          exact ⟨.absent, xs, vs, rfl, (compReadsSeq_opt hk).mpr (.inl ⟨rfl, rfl, hno u⟩), c4 u⟩
        · rintro u ⟨xs, x, xs', vs', rfl, hc, hr⟩
          have hc' := (compReadsSeq_opt hk).mp hc
          rcases hc' with ⟨rfl, rfl, _⟩ | ⟨v, x', rfl, hyes, rfl, hR⟩
          · exact b4 u ⟨xs', hr⟩
          · rw [hno (hCU u) v vs' rfl] at hyes; cases hyes
      cases hv : it.view.valid with
      | false =>
        obtain ⟨r, os', h1, h2⟩ := skip (by
          intro _ v vs' hvs
          rcases hstep with ⟨_, rfl⟩ | ⟨h, _⟩
          · cases hvs
          · rw [hv] at h; cases h)
        refine ⟨r, os', ?_, h2⟩
        rw [List.map_cons, decodeSeq, if_neg (by simp [hnm])]
        simpa [hv] using h1
      | true =>
        obtain ⟨cl, hcl, hi⟩ := hsv.identifier hv
        cases hcon : c.labels.contains (⟨cl, it.view.tag⟩ : Id) with
        | true =>
          obtain ⟨r, os', h1, h2⟩ := take (.inr hv) (fun u _ => by
            rw [hasId_of hi]
            have := ((hU u c (by simp)).2 hk ⟨cl, it.view.tag⟩).mp (by simpa using hcon)
            simpa using this)
          refine ⟨r, os', ?_, h2⟩
          rw [List.map_cons, decodeSeq, if_neg (by simp [hnm])]
          simp only [hv, if_true, hcl, Exec.ok_bind]
          rw [show c.field.labels = c.labels from rfl, hcon]
          simpa using h1
        | false =>
          obtain ⟨r, os', h1, h2⟩ := skip (by
            intro u v vs' hvs
            rcases hstep with ⟨h, _⟩ | ⟨_, vs2, _, h, _⟩
            · rw [hv] at h; cases h
            · rw [hvs] at h
              simp only [List.cons.injEq] at h
              rw [h.1, hasId_of hi]
              cases hcc : c.ty.outer.contains (⟨cl, it.view.tag⟩ : Id) with
              | false => rfl
              | true =>
                have := ((hU u c (by simp)).2 hk ⟨cl, it.view.tag⟩).mpr (by simpa using hcc)
                have : c.labels.contains (⟨cl, it.view.tag⟩ : Id) = true := by simpa using this
                rw [hcon] at this; cases this)
          refine ⟨r, os', ?_, h2⟩
          rw [List.map_cons, decodeSeq, if_neg (by simp [hnm])]
          simp only [hv, if_true, hcl, Exec.ok_bind]
          rw [show c.field.labels = c.labels from rfl, hcon]
          simpa using h1

/-- Header part of SEQUENCE and SET decoding. -/
theorem decodeCollection_safe {id : Ident} {fs : List Field} {body : List Obj → Iter → Exec (Bool × List Obj)}
    {os0 : List Obj} {v : BerView} (hs : SaneView v) :
    ((∀ w, ¬ Matches v id .constructed w) ∧ decodeCollection id fs body os0 v = .ok (false, .struct os0)) ∨
    ∃ w c it vs, Matches v id .constructed w ∧ w.content = .ok c ∧ c.length ≤ w.len ∧ Sane c ∧ it.buf = c ∧
      BerView.assign it.buf 0 = .ok it.view ∧ Elements c vs ∧
      decodeCollection id fs body os0 v = (if fs.isEmpty then .ok (true, .struct os0) else do
        let r ← body os0 it
        .ok (r.1, .struct r.2)) := by
  unfold decodeCollection
  cases hv : v.valid with
  | false =>
    refine .inl ⟨fun w hm => ?_, by simp⟩
    rw [(matches_valid hm).1] at hv; cases hv
  | true =>
    rcases hasCorrectHeader_cases hs id .constructed with ⟨h1, w, hm⟩ | ⟨h1, hno⟩
    · have hsw := matches_sane hs hm
      have hwv := (matches_valid hm).2
      have hwk : w.construction = .ok .constructed := by
        cases id with
        | single i => obtain ⟨_, _, h3, rfl⟩ := hm; exact h3
        | double o i => obtain ⟨_, _, _, _, _, _, _, _, h3⟩ := hm; exact h3
      have hsc := hsw.inner hwv hwk
      have hc := hsw.content
      have hcl := content_ok_length hc
      generalize (w.mem.drop w.hdr).take w.len = c at hsc hc hcl
      obtain ⟨vs, hel, _⟩ := sane_elements hsc
      obtain ⟨u, hu, _⟩ := hsc.assign 0
      refine .inr ⟨w, c, ⟨c, u⟩, vs, hm, hc, by omega, hsc, rfl, hu, hel, ?_⟩
      have hci : childIter v id = .ok ⟨c, u⟩ := by
        rw [childIter_of_matches hm hc, Iter.mk', BerView.parse, hu]; rfl
      simp [h1, hci]
    · obtain ⟨cl, _, hi⟩ := hs.identifier hv
      exact .inl ⟨hno, by simp [h1, hi]⟩

theorem seq_dec (id : Ident) (hid : identOk id) (fs : Fields) (hfs : ∀ c ∈ fs.comps, c.ty.EncLaws)
    (hds : ∀ c ∈ fs.comps, c.ty.DecLaw) (hg : ∀ c ∈ fs.comps, c.kind = .mandatory → ¬ c.ty.isUntaggedChoice)
    (hCU : (Ty.seq id fs).Unamb → (Ty.seq id fs).Proper) (hC : (Ty.seq id fs).Unamb → ∀ c ∈ fs.comps, c.ty.Unamb)
    (hU : (Ty.seq id fs).Proper → ∀ c ∈ fs.comps, c.ty.Proper ∧ (c.kind ≠ .mandatory → ∀ i, i ∈ c.labels ↔ i ∈ c.ty.outer)) :
    (Ty.seq id fs).DecLaw := by
  rintro v hs hp _ o0 ⟨x0, e0, os0, xs0, es0, rfl, rfl, rfl, h0⟩
  have h0' : compsHold fs.comps os0 := ⟨xs0, es0, (fs.rep_iff _ _ _).mp h0⟩
  have hdec : (Ty.seq id fs).codec.decode (.struct os0) v = decodeCollection id fs.fields (decodeSeq fs.fields) os0 v := rfl
  have mk : ∀ os, compsHold fs.comps os → (Ty.seq id fs).Holds (.struct os) := by
    rintro os ⟨xs, es, h⟩
    exact ⟨_, _, os, xs, es, rfl, rfl, rfl, (fs.rep_iff _ _ _).mpr h⟩
  rw [hdec]
  rcases decodeCollection_safe (id := id) (fs := fs.fields) (body := decodeSeq fs.fields) (os0 := os0) hs with
    ⟨hno, h1⟩ | ⟨w, c, it, vs, hm, hc, hcl, hsc, hbuf, ha, hel, h1⟩
  · refine ⟨false, _, h1, mk _ h0', (fun h => nomatch h), ?_⟩
    rintro _ ⟨x, w, _, _, _, hm, _⟩
    exact (hno w hm).elim
  · rw [h1]
    rw [← hbuf] at hsc hel
    obtain ⟨r, os, h2, h3, h4, h5⟩ := decodeSeq_safe hfs hds hg hCU hC hU h0' hsc ha hel
    rw [← Fields.fields_eq] at h2
    have acc : ∀ xs es os, compsRep fs.comps os xs es → compsValid fs.comps xs → es.flatten.length ≤ it.buf.length →
        ((Ty.seq id fs).Proper → compsReadsSeq fs.comps vs xs) → (Ty.seq id fs).Accepted v (.struct os) := by
      intro xs es os a1 a2 a3 a4
      rw [hbuf] at a3
      exact ⟨.struct xs, _, id.outer, ⟨os, xs, es, rfl, rfl, rfl, (fs.rep_iff _ _ _).mpr a1⟩,
        (fs.valid_iff xs).mpr a2, matches_min hid hs hp hm _ _ (by omega), (matches_valid hm).1, matches_outer hm,
        by simp [Ty.outer], fun u => ⟨w, c, vs, xs, hm, hc, hbuf ▸ hel, rfl, (fs.readsSeq_iff vs xs).mpr (a4 u)⟩⟩
    by_cases he : fs.fields.isEmpty = true
    · have hcn : fs.comps = [] := by
        rw [Fields.fields_eq] at he; simpa using he
      rw [if_pos he]
      rw [Fields.fields_eq, hcn, List.map_nil] at h2
      obtain ⟨xs, es, hr⟩ := h0'
      rw [hcn] at hr
      obtain ⟨rfl, rfl, rfl⟩ := compsRep_nil.mp hr
      have : (Ty.seq id fs).Accepted v (.struct []) := acc [] [] [] (by rw [hcn]; trivial) (by rw [hcn]; trivial) (by simp)
        (fun _ => by rw [hcn]; rfl)
      exact ⟨true, _, rfl, this.holds, fun _ => this, fun _ _ => rfl⟩
    · rw [if_neg he]
      refine ⟨r, .struct os, by simp [h2], mk os h3, ?_, ?_⟩
      · intro hr
        obtain ⟨xs, es, a1, a2, a3, a4⟩ := h4 hr
        exact acc xs es os a1 a2 a3 a4
      · rintro u ⟨x, w', c', vs', xs, hm', hc', hel', rfl, hR⟩
        have := matches_unique hm hm'
        subst this
        rw [hc] at hc'
        simp only [Exec.ok.injEq] at hc'
        subst hc'
        rw [hbuf] at hel
        have := hel.unique hel'
        subst this
        exact h5 u ⟨xs, (fs.readsSeq_iff _ _).mp hR⟩

end FastBer
