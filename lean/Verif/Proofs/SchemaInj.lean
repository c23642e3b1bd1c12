import Verif.Proofs.SchemaSafeSet
/-! # Encodings determine values -/
namespace FastBer
open Spec

/-- Different values have different encodings. -/
def Ty.InjLaw (t : Ty) : Prop :=
  ∀ {o o' x x' e}, t.Rep o x e → t.Rep o' x' e → e.length < 2 ^ 64 → x = x'

theorem tagged_inj {id : Ident} (hid : identOk id) {k : Construction} {a b : Bytes}
    (h : tagged id k a = tagged id k b) (hl : (tagged id k a).length < 2 ^ 64) : a = b := by
  obtain ⟨w, h1, h2, _⟩ := matches_tagged id hid k a [] hl
  obtain ⟨w', h3, h4, _⟩ := matches_tagged id hid k b [] (h ▸ hl)
  have e1 := assign_tagged id hid k a [] 0 hl
  rw [h, assign_tagged id hid k b [] 0 (h ▸ hl)] at e1
  simp only [Exec.ok.injEq] at e1
  rw [← e1] at h1
  have := matches_unique h1 h3
  subst this
  rw [h2] at h4
  simpa using h4

/-- Two elements at the front of the same bytes are the same. -/
theorem elem_prefix {e e' r r' : Bytes} {v v' : BerView} (h : BerView.parse e = .ok v) (hv : v.valid = true)
    (hl : v.hdr + v.len = e.length) (h' : BerView.parse e' = .ok v') (hv' : v'.valid = true)
    (hl' : v'.hdr + v'.len = e'.length) (heq : e ++ r = e' ++ r') : e = e' ∧ r = r' := by
  have h1 := assign_append h hv r 0
  rw [heq, assign_append h' hv' r' 0] at h1
  simp only [Exec.ok.injEq, BerView.mk.injEq] at h1
  exact List.append_inj heq (by omega)

theorem elem_ne {e : Bytes} {v : BerView} (h : BerView.parse e = .ok v) (hv : v.valid = true)
    (hl : v.hdr + v.len = e.length) : e ≠ [] := by
  obtain ⟨_, h2, _⟩ := assign_valid h hv
  intro he; rw [he] at hl; simp at hl; omega

theorem leaf_inj (k : Leaf) (id : Ident) (hid : identOk id) : (Ty.leaf k id).InjLaw := by
  intro o o' x x' e h h' hl
  have small : ∀ max, smallRep max id o x e → smallRep max id o' x' e → x = x' := by
    rintro max ⟨c, j, rfl, _, _, rfl, _⟩ ⟨c', j', rfl, _, _, he, _⟩
    rw [tagged_inj hid he hl]
  have cont : contRep id o x e → contRep id o' x' e → x = x' := by
    rintro ⟨v, w, h1, _, _, h4, _, rfl, _⟩ ⟨v', w', h1', _, _, h4', _, rfl, _⟩
    rw [h1] at h1'
    simp only [Exec.ok.injEq] at h1'
    subst h1'
    rw [matches_unique h4 h4']
  cases k with
  | int => exact small 8 h h'
  | enum => exact small 8 h h'
  | real _ => exact small 100 h h'
  | bool =>
    obtain ⟨b, rfl, rfl, _⟩ := h
    obtain ⟨b', rfl, he, _⟩ := h'
    rw [tagged_inj hid he hl]
  | null => obtain ⟨rfl, _⟩ := h; obtain ⟨rfl, _⟩ := h'; rfl
  | str => exact cont h h'
  | oid => exact cont h h'
  | time _ => exact cont h h'

theorem all3_inj {t : Ty} (he : t.EncLaws) (ht : t.InjLaw) {os os' : List Obj} {xs xs' : List Val} {es es' : List Bytes}
    (h : all3 t.Rep os xs es) (h' : all3 t.Rep os' xs' es') (heq : es.flatten = es'.flatten)
    (hl : es.flatten.length < 2 ^ 64) : xs = xs' := by
  induction os generalizing os' xs xs' es es' with
  | nil =>
    obtain ⟨rfl, rfl⟩ := all3_nil.mp h
    cases os' with
    | nil => obtain ⟨rfl, rfl⟩ := all3_nil.mp h'; rfl
    | cons o' os' =>
      obtain ⟨x', xs', e', es', rfl, rfl, h1, h2⟩ := all3_cons.mp h'
      simp only [List.flatten_nil, List.flatten_cons] at heq
      have he' : e' = [] := (List.append_eq_nil_iff.mp heq.symm).1
      obtain ⟨v, i, p1, p2, p3, _⟩ := he.elem h1 (by rw [he']; decide)
      exact (elem_ne p1 p2 p3 he').elim
  | cons o os ih =>
    obtain ⟨x, xs, e, es, rfl, rfl, h1, h2⟩ := all3_cons.mp h
    simp only [List.flatten_cons, List.length_append] at hl
    obtain ⟨v, i, p1, p2, p3, _⟩ := he.elem h1 (by omega)
    cases os' with
    | nil =>
      obtain ⟨rfl, rfl⟩ := all3_nil.mp h'
      simp only [List.flatten_nil, List.flatten_cons] at heq
      exact (elem_ne p1 p2 p3 (List.append_eq_nil_iff.mp heq).1).elim
    | cons o' os' =>
      obtain ⟨x', xs', e', es', rfl, rfl, h3, h4⟩ := all3_cons.mp h'
      simp only [List.flatten_cons] at heq
      have hl2 := congrArg List.length heq
      simp only [List.length_append] at hl2
      obtain ⟨v', i', q1, q2, q3, _⟩ := he.elem h3 (by omega)
      obtain ⟨rfl, hr⟩ := elem_prefix p1 p2 p3 q1 q2 q3 heq
      rw [ht h1 h3 (by omega), ih h2 h4 hr (by omega)]

theorem comps_inj {cs : List Comp} (hcs : ∀ c ∈ cs, c.ty.EncLaws) (his : ∀ c ∈ cs, c.ty.InjLaw)
    (hu : compSeqUnamb cs) {os os' : List Obj} {xs xs' : List Val} {es es' : List Bytes}
    (h : compsRep cs os xs es) (h' : compsRep cs os' xs' es') (heq : es.flatten = es'.flatten)
    (hl : es.flatten.length < 2 ^ 64) : xs = xs' := by
  induction cs generalizing os os' xs xs' es es' with
  | nil =>
    obtain ⟨_, rfl, _⟩ := compsRep_nil.mp h
    obtain ⟨_, rfl, _⟩ := compsRep_nil.mp h'
    rfl
  | cons c cs ih =>
    obtain ⟨o, os, x, xs, e, es, rfl, rfl, rfl, h1, h2⟩ := compsRep_cons.mp h
    obtain ⟨o', os', x', xs', e', es', rfl, rfl, rfl, h3, h4⟩ := compsRep_cons.mp h'
    simp only [List.flatten_cons] at heq
    simp only [List.flatten_cons, List.length_append] at hl
    have hl2 := congrArg List.length heq
    simp only [List.length_append] at hl2
    have ih' := @ih (fun c hc => hcs c (by simp [hc])) (fun c hc => his c (by simp [hc])) hu.2
    have hC := hcs c (by simp)
    have both : ∀ {a b y z}, c.ty.Rep a y e → c.ty.Rep b z e' → e = e' ∧ y = z ∧ es.flatten = es'.flatten := by
      intro a b y z ha hb
      obtain ⟨v, i, p1, p2, p3, _⟩ := hC.elem ha (by omega)
      obtain ⟨v', i', q1, q2, q3, _⟩ := hC.elem hb (by omega)
      obtain ⟨rfl, hr⟩ := elem_prefix p1 p2 p3 q1 q2 q3 heq
      exact ⟨rfl, his c (by simp) ha hb (by omega), hr⟩
    -- an element of this component cannot begin the rest
    have one : ∀ {a y f r qs ys ds}, c.kind ≠ .mandatory → c.ty.Rep a y f → compsRep cs qs ys ds → f ++ r = ds.flatten →
        ds.flatten.length < 2 ^ 64 → False := by
      intro a y f r qs ys ds hk ha hr hfr hdl
      have hfl := congrArg List.length hfr
      simp only [List.length_append] at hfl
      obtain ⟨v, i, p1, p2, p3, p4, p5⟩ := hC.elem ha (by omega)
      have hne := elem_ne p1 p2 p3
      rcases comps_first (fun c hc => hcs c (by simp [hc])) hr hdl 0 with hnil | ⟨w, j, q1, q2, q3, q4⟩
      · rw [hnil] at hfr; exact hne (List.append_eq_nil_iff.mp hfr).1
      · rw [← hfr, assign_append p1 p2 r 0] at q1
        simp only [Exec.ok.injEq] at q1
        have hm := (assign_valid p1 p2).1
        have := (identifier_mem r hm hne).1
        rw [q1, q3, p5] at this
        simp only [Exec.ok.injEq] at this
        subst this
        exact (hu.1 hk).2 j (((hu.1 hk).1 j).mpr p4) q4
    rcases comp_cases h1 with ⟨hk, ha⟩ | ⟨hk, rfl, rfl, rfl⟩ | ⟨hk, a, y, rfl, rfl, ha⟩
    · rcases comp_cases h3 with ⟨_, hb⟩ | ⟨hk', _⟩ | ⟨hk', _⟩
      · obtain ⟨rfl, rfl, hr⟩ := both ha hb
        rw [ih' h2 h4 hr (by omega)]
      · exact (hk' hk).elim
      · exact (hk' hk).elim
    · rcases comp_cases h3 with ⟨hk', _⟩ | ⟨_, rfl, rfl, rfl⟩ | ⟨_, b, z, rfl, rfl, hb⟩
      · exact (hk hk').elim
      · rw [ih' h2 h4 (by simpa using heq) (by omega)]
      · exact (one hk hb h2 (by simpa using heq.symm) (by omega)).elim
    · rcases comp_cases h3 with ⟨hk', _⟩ | ⟨_, rfl, rfl, rfl⟩ | ⟨_, b, z, rfl, rfl, hb⟩
      · exact (hk hk').elim
      · exact (one hk ha h4 (by simpa using heq) (by rw [List.length_nil] at hl2; omega)).elim
      · obtain ⟨rfl, rfl, hr⟩ := both ha hb
        rw [ih' h2 h4 hr (by omega)]

theorem compFirsts_sub (cs : List Comp) (i : Id) (h : i ∈ compFirsts cs) : ∃ c ∈ cs, i ∈ c.ty.outer := by
  induction cs with
  | nil => cases h
  | cons c cs ih =>
    simp only [compFirsts, List.mem_append] at h
    rcases h with h | h
    · exact ⟨c, by simp, h⟩
    · split at h
      · cases h
      · obtain ⟨d, hd, hi⟩ := ih h
        exact ⟨d, by simp [hd], hi⟩

theorem compSetUnamb_seq {cs : List Comp} (h : compSetUnamb cs) : compSeqUnamb cs := by
  induction cs with
  | nil => trivial
  | cons c cs ih =>
    refine ⟨fun _ => ⟨h.1, fun i hi hf => ?_⟩, ih h.2.2⟩
    obtain ⟨d, hd, hid⟩ := compFirsts_sub cs i hf
    obtain ⟨n, hn⟩ := List.mem_iff_getElem?.mp hd
    exact h.2.1 i hi d hd ((compSetUnamb_get h.2.2 hn i).mpr hid)

theorem Alts.Distinct.label : (as : Alts) → as.Distinct → ∀ {n : Nat} {c : AltC}, as.list[n]? = some c →
    ∀ k, k ∈ c.ty.outer → k ∈ as.labels
  | .nil, _, n, c, hc => by simp [Alts.list] at hc
  | .cons l t rest, hd, n, c, hc => by
    intro k hk
    simp only [Alts.labels, List.mem_append]
    cases n with
    | zero => simp only [Alts.list, List.getElem?_cons_zero, Option.some.injEq] at hc; subst hc; exact .inl ((hd.1 k).mpr hk)
    | succ n => simp only [Alts.list, List.getElem?_cons_succ] at hc; exact .inr (Alts.Distinct.label rest hd.2.2 hc k hk)

/-- Alternatives with a common identifier are the same alternative. -/
theorem Alts.Distinct.index : (as : Alts) → as.Distinct → ∀ {i j : Nat} {a b : AltC} {k : Id}, as.list[i]? = some a →
    as.list[j]? = some b → k ∈ a.ty.outer → k ∈ b.ty.outer → i = j
  | .nil, _, i, j, a, b, k, ha, _, _, _ => by simp [Alts.list] at ha
  | .cons l t rest, h, i, j, a, b, k, ha, hb, hka, hkb => by
    cases i with
    | zero =>
      simp only [Alts.list, List.getElem?_cons_zero, Option.some.injEq] at ha
      subst ha
      cases j with
      | zero => rfl
      | succ j =>
        simp only [Alts.list, List.getElem?_cons_succ] at hb
        exact (h.2.1 k ((h.1 k).mpr hka) (Alts.Distinct.label rest h.2.2 hb k hkb)).elim
    | succ i =>
      simp only [Alts.list, List.getElem?_cons_succ] at ha
      cases j with
      | zero =>
        simp only [Alts.list, List.getElem?_cons_zero, Option.some.injEq] at hb
        subst hb
        exact (h.2.1 k ((h.1 k).mpr hkb) (Alts.Distinct.label rest h.2.2 ha k hka)).elim
      | succ j =>
        simp only [Alts.list, List.getElem?_cons_succ] at hb
        rw [Alts.Distinct.index rest h.2.2 ha hb hka hkb]

theorem choice_inj (cid : ChoiceIdent) (as : Alts) (hid : ∀ id, cid = .tagged id → identOk id)
    (hes : ∀ a ∈ as.list, a.ty.EncLaws) (his : ∀ a ∈ as.list, a.ty.InjLaw)
    (hu : as.Distinct) : (Ty.choice cid as).InjLaw := by
  rintro o o' x x' e ⟨i, a, y, f, rfl, rfl, h1, he⟩ ⟨j, b, z, g, rfl, rfl, h2, he'⟩ hl
  have hfg : f = g ∧ f.length < 2 ^ 64 := by
    cases cid with
    | untagged _ => simp only at he he'; exact ⟨he.symm.trans he', he ▸ hl⟩
    | tagged id =>
      simp only at he he'
      have h := hid id rfl
      have hle := content_le_tagged id .constructed f
      rw [he] at he' hl
      exact ⟨tagged_inj h he' hl, by omega⟩
  obtain ⟨rfl, hfl⟩ := hfg
  obtain ⟨p, hp, h1⟩ := (as.rep_iff _ _ _ _).mp h1
  obtain ⟨q, hq, h2⟩ := (as.rep_iff _ _ _ _).mp h2
  obtain ⟨v, k, p1, p2, p3, p4, p5⟩ := (hes p (List.mem_of_getElem? hp)).elem h1 hfl
  obtain ⟨v', k', q1, q2, q3, q4, q5⟩ := (hes q (List.mem_of_getElem? hq)).elem h2 hfl
  rw [p1] at q1
  simp only [Exec.ok.injEq] at q1
  subst q1
  rw [p5] at q5
  simp only [Exec.ok.injEq] at q5
  subst q5
  have := Alts.Distinct.index as hu hp hq p4 q4
  subst this
  rw [hp] at hq
  simp only [Option.some.injEq] at hq
  subst hq
  rw [his p (List.mem_of_getElem? hp) h1 h2 hfl]

theorem coll_inj {id : Ident} (hid : identOk id) {fs : Fields} (hfs : ∀ c ∈ fs.comps, c.ty.EncLaws)
    (his : ∀ c ∈ fs.comps, c.ty.InjLaw) (hu : compSeqUnamb fs.comps) {os os' : List Obj} {xs xs' : List Val}
    {es es' : List Bytes} (h : fs.Rep os xs es) (h' : fs.Rep os' xs' es')
    (he : tagged id .constructed es.flatten = tagged id .constructed es'.flatten)
    (hl : (tagged id .constructed es.flatten).length < 2 ^ 64) : xs = xs' := by
  have hle := content_le_tagged id .constructed es.flatten
  exact comps_inj hfs his hu ((fs.rep_iff _ _ _).mp h) ((fs.rep_iff _ _ _).mp h') (tagged_inj hid he hl) (by omega)

mutual
theorem Ty.injLaw : (t : Ty) → t.WF → t.Proper → t.InjLaw
  | .leaf k id, h, _ => leaf_inj k id h
  | .seqOf id t, h, hu => by
    rintro ⟨os, xs, es, rfl, rfl, rfl, h1⟩ ⟨os', xs', es', rfl, rfl, he, h2⟩ hl
    have hle := content_le_tagged id .constructed es.flatten
    rw [all3_inj (t.encLaws h.2) (t.injLaw h.2 hu) h1 h2 (tagged_inj h.1 he hl) (by omega)]
  | .seq id fs, h, hu => by
    rintro ⟨os, xs, es, rfl, rfl, rfl, h1⟩ ⟨os', xs', es', rfl, rfl, he, h2⟩ hl
    rw [coll_inj h.1 (fs.encLaws h.2) (fs.injLaw h.2 hu.2) (fs.seqUnamb_iff.mp hu.1) h1 h2 he hl]
  | .set id ext fs, h, hu => by
    rintro ⟨os, xs, es, rfl, rfl, rfl, h1⟩ ⟨os', xs', es', rfl, rfl, he, h2⟩ hl
    rw [coll_inj h.1 (fs.encLaws h.2) (fs.injLaw h.2 hu.2) (compSetUnamb_seq (fs.setUnamb_iff.mp hu.1)) h1 h2 he hl]
  | .choice (.untagged _) as, h, hu =>
    choice_inj _ as (fun _ he => ChoiceIdent.noConfusion he) (as.encLaws h.2.1) (as.injLaw h.2.1 hu.2) hu.1
  | .choice (.tagged id) as, h, hu =>
    choice_inj _ as (fun _ he => by cases he; exact h.1) (as.encLaws h.2.1) (as.injLaw h.2.1 hu.2) hu.1
theorem Fields.injLaw : (fs : Fields) → fs.WF → fs.AllProper → ∀ c ∈ fs.comps, c.ty.InjLaw
  | .nil, _, _ => by intro c hc; cases hc
  | .cons k l t rest, h, hu => by
    intro c hc
    rcases List.mem_cons.mp hc with rfl | hc
    · exact t.injLaw h.1 hu.1
    · exact rest.injLaw h.2.2 hu.2 c hc
theorem Alts.injLaw : (as : Alts) → as.WF → as.AllProper → ∀ a ∈ as.list, a.ty.InjLaw
  | .nil, _, _ => by intro c hc; cases hc
  | .cons l t rest, h, hu => by
    intro c hc
    rcases List.mem_cons.mp hc with rfl | hc
    · exact t.injLaw h.1 hu.1
    · exact rest.injLaw h.2 hu.2 c hc
end

end FastBer
