import Verif.Proofs.SchemaRound
/-! # Round trip of SET (in any order of the components) and CHOICE -/
namespace FastBer
open Spec

/-! ## Component lists by index -/

theorem compsRep_length {cs : List Comp} {os : List Obj} {xs : List Val} {es : List Bytes}
    (h : compsRep cs os xs es) : os.length = cs.length ∧ xs.length = cs.length ∧ es.length = cs.length := by
  induction cs generalizing os xs es with
  | nil => obtain ⟨rfl, rfl, rfl⟩ := compsRep_nil.mp h; simp
  | cons c cs ih =>
    obtain ⟨o, os, x, xs, e, es, rfl, rfl, rfl, h1, h2⟩ := compsRep_cons.mp h
    have := ih h2
    simp [this.1, this.2.1, this.2.2]

theorem compsRep_get {cs : List Comp} {os : List Obj} {xs : List Val} {es : List Bytes}
    (h : compsRep cs os xs es) {n : Nat} {c : Comp} (hn : cs[n]? = some c) :
    ∃ o x e, os[n]? = some o ∧ xs[n]? = some x ∧ es[n]? = some e ∧ c.Rep o x e := by
  induction cs generalizing os xs es n with
  | nil => simp at hn
  | cons c' cs ih =>
    obtain ⟨o, os, x, xs, e, es, rfl, rfl, rfl, h1, h2⟩ := compsRep_cons.mp h
    cases n with
    | zero =>
      simp only [List.getElem?_cons_zero, Option.some.injEq] at hn
      subst hn
      exact ⟨o, x, e, rfl, rfl, rfl, h1⟩
    | succ n => simpa using ih h2 (by simpa using hn)

theorem compsValid_get {cs : List Comp} {xs : List Val} (h : compsValid cs xs) {n : Nat} {c : Comp} {x : Val}
    (hn : cs[n]? = some c) (hx : xs[n]? = some x) : c.Valid x := by
  induction cs generalizing xs n with
  | nil => simp at hn
  | cons c' cs ih =>
    cases xs with
    | nil => simp at hx
    | cons x' xs =>
      cases n with
      | zero =>
        simp only [List.getElem?_cons_zero, Option.some.injEq] at hn hx
        subst hn; subst hx
        exact h.1
      | succ n => exact ih h.2 (by simpa using hn) (by simpa using hx)

theorem length_le_flatten {es : List Bytes} {n : Nat} {e : Bytes} (h : es[n]? = some e) :
    e.length ≤ es.flatten.length := by
  induction es generalizing n with
  | nil => simp at h
  | cons e' es ih =>
    rw [List.flatten_cons, List.length_append]
    cases n with
    | zero => simp only [List.getElem?_cons_zero, Option.some.injEq] at h; subst h; omega
    | succ n => have := ih (by simpa using h); omega

/-! ## Dispatch -/

def compSetUnamb : List Comp → Prop
  | [] => True
  | c :: cs => (∀ i, i ∈ c.labels ↔ i ∈ c.ty.outer) ∧ (∀ i ∈ c.labels, ∀ c' ∈ cs, i ∉ c'.labels) ∧ compSetUnamb cs

theorem Fields.labels_mem : (fs : Fields) → (i : Id) → (i ∈ fs.labels ↔ ∃ c ∈ fs.comps, i ∈ c.labels)
  | .nil, i => by simp [Fields.labels, Fields.comps]
  | .cons k l t rest, i => by simp [Fields.labels, Fields.comps, Fields.labels_mem rest]

theorem Fields.setUnamb_iff : (fs : Fields) → (fs.SetUnamb ↔ compSetUnamb fs.comps)
  | .nil => Iff.rfl
  | .cons k l t rest => by
    simp [Fields.SetUnamb, Fields.comps, compSetUnamb, Fields.setUnamb_iff rest, Fields.labels_mem]

theorem compSetUnamb_get {cs : List Comp} (hu : compSetUnamb cs) {n : Nat} {c : Comp} (hn : cs[n]? = some c) :
    ∀ i, i ∈ c.labels ↔ i ∈ c.ty.outer := by
  induction cs generalizing n with
  | nil => simp at hn
  | cons c' cs ih =>
    cases n with
    | zero => simp only [List.getElem?_cons_zero, Option.some.injEq] at hn; subst hn; exact hu.1
    | succ n => exact ih hu.2.2 (by simpa using hn)

theorem findField_eq {cs : List Comp} (hu : compSetUnamb cs) {n : Nat} {c : Comp} (hn : cs[n]? = some c)
    {i : Id} (hi : i ∈ c.ty.outer) : findField i (cs.map Comp.field) = some n := by
  induction cs generalizing n with
  | nil => simp at hn
  | cons c' cs ih =>
    cases n with
    | zero =>
      simp only [List.getElem?_cons_zero, Option.some.injEq] at hn
      subst hn
      have : c'.field.labels.contains i = true := by simpa [Comp.field] using (hu.1 i).mpr hi
      rw [List.map_cons, findField, if_pos this]
    | succ n =>
      have hn' : cs[n]? = some c := by simpa using hn
      have hlab : i ∈ c.labels := (compSetUnamb_get hu.2.2 hn' i).mpr hi
      have : ¬ c'.field.labels.contains i = true := by
        intro hc
        exact hu.2.1 i (by simpa [Comp.field] using hc) c (List.mem_of_getElem? hn') hlab
      simp only [List.map_cons, findField, if_neg this, ih hu.2.2 hn', Option.map_some]

/-! ## The SET loop on encoded components in any order -/

/-- State of the loop: the components still to come (`ns`) are untouched, the others hold the values to be decoded. -/
structure SetState (cs : List Comp) (xs : List Val) (es : List Bytes) (ns : List Nat) (os : List Obj)
    (ks : List Nat) : Prop where
  lenO : os.length = cs.length
  lenK : ks.length = cs.length
  pt : ∀ n c, cs[n]? = some c → ∃ o k x e, os[n]? = some o ∧ ks[n]? = some k ∧ xs[n]? = some x ∧ es[n]? = some e ∧
    (n ∈ ns → k = 0 ∧ c.Holds o) ∧
    (n ∉ ns → (e = [] ∧ k = 0) ∨ (e ≠ [] ∧ k = 1 ∧ c.Rep o x e))

theorem setLoop_round (ext : Bool) {cs : List Comp} (hcs : ∀ c ∈ cs, c.ty.EncLaws) (hrs : ∀ c ∈ cs, c.ty.RoundLaw)
    (hu : compSetUnamb cs) {ot : List Obj} {xs : List Val} {es : List Bytes}
    (h : compsRep cs ot xs es) (hval : compsValid cs xs) (hl : es.flatten.length < 2 ^ 64)
    (ps : List (Bytes × Nat)) (hps : ∀ p ∈ ps, es[p.2]? = some p.1) (hnd : (ps.map Prod.snd).Nodup)
    (os : List Obj) (ks : List Nat) (hst : SetState cs xs es (ps.map Prod.snd) os ks) (tag0 : Int) :
    ∃ os' ks', setLoop ext (cs.map Comp.field) (ps.map Prod.fst).flatten tag0 os ks = .ok (true, os', ks') ∧
      SetState cs xs es [] os' ks' := by
  induction ps generalizing os ks tag0 with
  | nil =>
    refine ⟨os, ks, ?_, by simpa using hst⟩
    rw [setLoop]
    simp [assign_nil, BerView.invalid]
  | cons p ps ih =>
    obtain ⟨e, n⟩ := p
    have hen : es[n]? = some e := hps (e, n) (by simp)
    have hps' : ∀ p ∈ ps, es[p.2]? = some p.1 := fun p hp => hps p (by simp [hp])
    simp only [List.map_cons, List.nodup_cons] at hnd
    have hnlt : n < cs.length := by
      have := (compsRep_length h).2.2
      have := (List.getElem?_eq_some_iff.mp hen).1
      omega
    obtain ⟨c, hc⟩ : ∃ c, cs[n]? = some c := ⟨cs[n], by simp [hnlt]⟩
    obtain ⟨o, k, x, e', hO, hK, hX, hE, hin, _⟩ := hst.pt n c hc
    rw [hen] at hE
    simp only [Option.some.injEq] at hE
    subst hE
    obtain ⟨hk0, hholds⟩ := hin (by simp)
    subst hk0
    obtain ⟨o1, x1, e1, _, hX1, hE1, hrep1⟩ := compsRep_get h hc
    rw [hX] at hX1; rw [hen] at hE1
    simp only [Option.some.injEq] at hX1 hE1
    subst hX1; subst hE1
    have hcm := List.mem_of_getElem? hc
    have hle := length_le_flatten hen
    rw [List.map_cons, List.flatten_cons]
    rcases comp_elem (hcs c hcm) hrep1 (by omega) (ps.map Prod.fst).flatten tag0 with ⟨hk, rfl, rfl, rfl⟩ |
      ⟨v, i, h3, h4, hbl, hp, h5, h6, h7⟩
    · -- absent: contributes nothing
      rw [List.nil_append]
      refine ih hps' hnd.2 os ks ⟨hst.lenO, hst.lenK, ?_⟩ tag0
      intro m d hd
      obtain ⟨o2, k2, x2, e2, a1, a2, a3, a4, a5, a6⟩ := hst.pt m d hd
      refine ⟨o2, k2, x2, e2, a1, a2, a3, a4, fun hm => a5 (by simp [hm]), fun hm => ?_⟩
      by_cases hmn : m = n
      · subst hmn
        rw [hen] at a4; rw [hK] at a2
        simp only [Option.some.injEq] at a4 a2
        exact .inl ⟨a4.symm, a2.symm⟩
      · exact a6 (by simp only [List.map_cons, List.mem_cons, not_or]; exact ⟨hmn, hm⟩)
    · have hne : e ≠ [] := by intro hcn; rw [hcn] at hp; simp at hp
      obtain ⟨o', h8, h9⟩ := comp_round (hcs c hcm) (hrs c hcm) hrep1 hne (compsValid_get hval hc hX) (by omega) hholds h3
      obtain ⟨os', ks', h10, h11⟩ := ih hps' hnd.2 (os.set n o') (ks.modify n (· + 1)) (by
        refine ⟨by simp [hst.lenO], by simp [hst.lenK], ?_⟩
        intro m d hd
        obtain ⟨o2, k2, x2, e2, a1, a2, a3, a4, a5, a6⟩ := hst.pt m d hd
        by_cases hmn : m = n
        · subst hmn
          rw [hc] at hd
          simp only [Option.some.injEq] at hd
          subst hd
          rw [hen] at a4; rw [hX] at a3
          simp only [Option.some.injEq] at a4 a3
          subst a4; subst a3
          refine ⟨o', 1, x, e, ?_, ?_, hX, hen, ?_, ?_⟩
          · rw [List.getElem?_set_self (by rw [hst.lenO]; exact hnlt)]
          · rw [List.getElem?_modify_eq, hK]; rfl
          · intro hm; exact (hnd.1 hm).elim
          · intro _; exact .inr ⟨hne, rfl, h9⟩
        · refine ⟨o2, k2, x2, e2, ?_, ?_, a3, a4, fun hm => a5 (by simp [hm]), fun hm => a6 ?_⟩
          · rw [List.getElem?_set_ne (by omega)]; exact a1
          · have hnm : ¬ n = m := fun h => hmn h.symm
            rw [List.getElem?_modify, a2]; simp [hnm]
          · simp only [List.map_cons, List.mem_cons, not_or]; exact ⟨hmn, hm⟩) v.tag
      refine ⟨os', ks', ?_, h11⟩
      rw [setLoop, h3]
      have hf := findField_eq hu hc h5
      have hfs : (cs.map Comp.field)[n]? = some c.field := by rw [List.getElem?_map, hc]; rfl
      simp only [h4, if_true, h6, hf, hfs, hO, h8, Bool.not_true, Bool.false_eq_true, if_false]
      rw [dif_pos ⟨by omega, by simp; omega⟩, hbl]
      simpa using h10

theorem setFinish_round {cs : List Comp} (hcs : ∀ c ∈ cs, c.ty.EncLaws) {ot : List Obj} {xs : List Val} {es : List Bytes}
    (h : compsRep cs ot xs es) (hl : es.flatten.length < 2 ^ 64) {os : List Obj} {ks : List Nat}
    (hst : SetState cs xs es [] os ks) :
    ∃ os', setFinish (cs.map Comp.field) os ks = .ok (true, os') ∧ compsRep cs os' xs es := by
  induction cs generalizing ot xs es os ks with
  | nil =>
    obtain ⟨rfl, rfl, rfl⟩ := compsRep_nil.mp h
    have h1 := hst.lenO
    have h2 := hst.lenK
    simp only [List.length_nil, List.length_eq_zero_iff] at h1 h2
    subst h1; subst h2
    exact ⟨[], rfl, trivial⟩
  | cons c cs ih =>
    obtain ⟨o1, ot, x, xs, e, es, rfl, rfl, rfl, h1, h2⟩ := compsRep_cons.mp h
    have hlO := hst.lenO
    have hlK := hst.lenK
    cases os with
    | nil => simp at hlO
    | cons o os =>
      cases ks with
      | nil => simp at hlK
      | cons k ks =>
        rw [List.flatten_cons, List.length_append] at hl
        obtain ⟨os', h3, h4⟩ := ih (fun c hc => hcs c (by simp [hc])) h2 (by omega) (os := os) (ks := ks) ⟨by simpa using hlO, by simpa using hlK,
          fun n d hd => by simpa using hst.pt (n + 1) d (by simpa using hd)⟩
        obtain ⟨o2, k2, x2, e2, a1, a2, a3, a4, _, a6⟩ := hst.pt 0 c (by simp)
        simp only [List.getElem?_cons_zero, Option.some.injEq] at a1 a2 a3 a4
        subst a1; subst a2; subst a3; subst a4
        rcases a6 (by simp) with ⟨rfl, rfl⟩ | ⟨hne, rfl, hrep⟩
        · rcases comp_elem (hcs c (by simp)) h1 (by simp) [] 0 with ⟨hk, _, rfl, rfl⟩ | ⟨_, _, _, _, _, hp, _⟩
          · have hnm : c.field.isMandatory = false := by
              cases hm : c.field.isMandatory with
              | false => rfl
              | true => exact (hk (isMandatory_iff.mp hm)).elim
            refine ⟨.none :: os', ?_, ⟨comp_mk_none hk, h4⟩⟩
            simp [setFinish, hnm, h3]
          · simp at hp
        · exact ⟨o :: os', by simp [setFinish, h3], ⟨hrep, h4⟩⟩

/-! ## Permutations -/

theorem perm_map_lift {α β : Type} (f : α → β) {m1 m2 : List β} (h : m1.Perm m2) :
    ∀ l : List α, l.map f = m1 → ∃ l', l.Perm l' ∧ l'.map f = m2 := by
  induction h with
  | nil => intro l hl; exact ⟨l, .refl _, hl⟩
  | cons b _ ih =>
    intro l hl
    obtain ⟨a, l1, rfl, rfl, h1⟩ := List.map_eq_cons_iff.mp hl
    obtain ⟨l', h2, h3⟩ := ih l1 h1
    exact ⟨a :: l', h2.cons a, by simp [h3]⟩
  | swap b c m =>
    intro l hl
    obtain ⟨a, l1, rfl, rfl, h1⟩ := List.map_eq_cons_iff.mp hl
    obtain ⟨a', l2, rfl, rfl, h2⟩ := List.map_eq_cons_iff.mp h1
    exact ⟨a' :: a :: l2, .swap _ _ _, by simp [h2]⟩
  | trans _ _ ih1 ih2 =>
    intro l hl
    obtain ⟨l1, h1, h2⟩ := ih1 l hl
    obtain ⟨l2, h3, h4⟩ := ih2 l1 h2
    exact ⟨l2, h1.trans h3, h4⟩

theorem perm_indices {es es' : List Bytes} (h : es.Perm es') :
    ∃ ps : List (Bytes × Nat), (∀ p ∈ ps, es[p.2]? = some p.1) ∧ (ps.map Prod.snd).Nodup ∧ ps.map Prod.fst = es' ∧
      ∀ n, n < es.length → n ∈ ps.map Prod.snd := by
  have h0 : es.zipIdx.map Prod.fst = es := by simp
  obtain ⟨ps, h1, h2⟩ := perm_map_lift Prod.fst h es.zipIdx h0
  have h3 : (es.zipIdx.map Prod.snd).Perm (ps.map Prod.snd) := h1.map _
  have h4 : es.zipIdx.map Prod.snd = List.range es.length := by
    simp [List.range_eq_range']
  rw [h4] at h3
  refine ⟨ps, ?_, ?_, h2, ?_⟩
  · intro p hp
    have := h1.mem_iff.mpr hp
    rw [List.mk_mem_zipIdx_iff_getElem?] at this
    exact this
  · exact h3.nodup_iff.mp List.nodup_range
  · intro n hn
    exact h3.mem_iff.mp (by simpa using hn)

/-- A SET decodes from its components' encodings in any order. -/
theorem set_perm (id : Ident) (hid : identOk id) (ext : Bool) (fs : Fields) (hfs : ∀ c ∈ fs.comps, c.ty.EncLaws)
    (hrs : ∀ c ∈ fs.comps, c.ty.RoundLaw) (hu : fs.SetUnamb) {os : List Obj} {xs : List Val} {es es' : List Bytes}
    (h : fs.Rep os xs es) (hval : fs.Valid xs) (hp : es.Perm es')
    (hl : (tagged id .constructed es'.flatten).length < 2 ^ 64) {os0 : List Obj} (h0 : compsHold fs.comps os0)
    {s : Bytes} {tag0 : Int} {v : BerView}
    (ha : BerView.assign (tagged id .constructed es'.flatten ++ s) tag0 = .ok v) :
    ∃ os', (Ty.set id ext fs).codec.decode (.struct os0) v = .ok (true, .struct os') ∧ fs.Rep os' xs es := by
  have hc := content_le_tagged id .constructed es'.flatten
  have hfl : es.flatten.length = es'.flatten.length := by
    rw [List.length_flatten, List.length_flatten]
    exact (hp.map List.length).sum_nat
  rw [Fields.rep_iff] at h
  rw [Fields.valid_iff] at hval
  rw [Fields.setUnamb_iff] at hu
  have hdec : (Ty.set id ext fs).codec.decode (.struct os0) v =
    decodeCollection id fs.fields (decodeSet ext fs.fields) os0 v := rfl
  rw [hdec, decodeCollection_tagged id hid _ _ _ _ _ _ _ hl ha, Fields.fields_eq]
  obtain ⟨ps, hps, hnd, hmap, hall⟩ := perm_indices hp
  obtain ⟨xs0, es0, h0⟩ := h0
  have hlen := compsRep_length h
  have hlen0 := compsRep_length h0
  obtain ⟨os1, ks1, h1, h2⟩ := setLoop_round ext hfs hrs hu h hval (by omega) ps hps hnd os0
    (List.replicate fs.comps.length 0) (by
      refine ⟨hlen0.1, by simp, ?_⟩
      intro n c hn
      obtain ⟨o, x0, e0, a1, _, _, a4⟩ := compsRep_get h0 hn
      obtain ⟨_, x, e, _, b2, b3, _⟩ := compsRep_get h hn
      have hlt := (List.getElem?_eq_some_iff.mp hn).1
      refine ⟨o, 0, x, e, a1, by simp [hlt], b2, b3, fun _ => ⟨rfl, x0, e0, a4⟩, fun hm => ?_⟩
      exact (hm (hall n (by omega))).elim) 0
  obtain ⟨os', h3, h4⟩ := setFinish_round hfs h (by omega) h2
  by_cases hemp : (fs.comps.map Comp.field).isEmpty = true
  · rw [if_pos hemp]
    simp only [List.isEmpty_iff, List.map_eq_nil_iff] at hemp
    rw [hemp] at h h0
    obtain ⟨rfl, rfl, rfl⟩ := compsRep_nil.mp h
    obtain ⟨rfl, _, _⟩ := compsRep_nil.mp h0
    exact ⟨[], rfl, by rw [Fields.rep_iff, hemp]; trivial⟩
  · rw [if_neg hemp]
    refine ⟨os', ?_, by rw [Fields.rep_iff]; exact h4⟩
    have hit : ∃ w, BerView.parse es'.flatten = .ok w := by
      rw [← hmap]
      rw [setLoop] at h1
      cases hx : BerView.assign (ps.map Prod.fst).flatten 0 with
      | ok w => exact ⟨w, hx⟩
      | ub => rw [hx] at h1; cases h1
      | loop => rw [hx] at h1; cases h1
    obtain ⟨w, hw⟩ := hit
    simp only [Iter.mk', hw, Exec.ok_bind, decodeSet]
    rw [← hmap]
    simp only [List.length_map, h1, Exec.ok_bind, Bool.not_true, Bool.false_eq_true, if_false, h3]

theorem set_round (id : Ident) (hid : identOk id) (ext : Bool) (fs : Fields) (hfs : ∀ c ∈ fs.comps, c.ty.EncLaws)
    (hrs : ∀ c ∈ fs.comps, c.ty.RoundLaw) (hu : fs.SetUnamb) : (Ty.set id ext fs).RoundLaw := by
  rintro o x e ⟨os, xs, es, rfl, rfl, rfl, h⟩ hval hl o0 ⟨x0, e0, os0, xs0, es0, rfl, rfl, rfl, h0⟩ s tag0 v ha
  obtain ⟨os', h1, h2⟩ := set_perm id hid ext fs hfs hrs hu h hval (List.Perm.refl es) hl
    ⟨xs0, es0, (Fields.rep_iff _ _ _ _).mp h0⟩ ha
  exact ⟨.struct os', h1, os', xs, es, rfl, rfl, rfl, h2⟩

/-! ## CHOICE -/

theorem findAltIn_some {cl : Class} {t : Int} {as : List AltC} {k : Nat}
    (h : findAltIn cl t (as.map AltC.alt) = some k) : ∃ a, as[k]? = some a ∧ (⟨cl, t⟩ : Id) ∈ a.labels := by
  induction as generalizing k with
  | nil => simp [findAltIn] at h
  | cons a as ih =>
    simp only [List.map_cons, findAltIn] at h
    split at h
    · rename_i hc
      simp only [Option.some.injEq] at h
      subst h
      exact ⟨a, rfl, by simpa [AltC.alt] using hc⟩
    · cases hx : findAltIn cl t (as.map AltC.alt) with
      | none => rw [hx] at h; simp at h
      | some m =>
        rw [hx] at h
        simp only [Option.map_some, Option.some.injEq] at h
        subst h
        simpa using ih hx

theorem findAltIn_ne_none {cl : Class} {t : Int} {as : List AltC} {a : AltC} (ha : a ∈ as)
    (hl : (⟨cl, t⟩ : Id) ∈ a.labels) : ∃ k, findAltIn cl t (as.map AltC.alt) = some k := by
  induction as with
  | nil => simp at ha
  | cons b as ih =>
    simp only [List.map_cons, findAltIn]
    split
    · exact ⟨0, rfl⟩
    · rename_i hc
      rcases List.mem_cons.mp ha with rfl | ha
      · exact (hc (by simpa [AltC.alt] using hl)).elim
      · obtain ⟨k, hk⟩ := ih ha
        exact ⟨k + 1, by rw [hk]; rfl⟩

theorem Alts.labels_mem : (as : Alts) → (i : Id) → (i ∈ as.labels ↔ ∃ a ∈ as.list, i ∈ a.labels)
  | .nil, i => by simp [Alts.labels, Alts.list]
  | .cons l t rest, i => by simp [Alts.labels, Alts.list, Alts.labels_mem rest]

theorem Alts.unamb_labels : (as : Alts) → as.Unamb → ∀ (n : Nat) (a : AltC), as.list[n]? = some a →
    ∀ i, i ∈ a.labels ↔ i ∈ a.ty.outer
  | .nil, _, n, a, h => by simp [Alts.list] at h
  | .cons l t rest, hu, 0, a, h => by
    simp only [Alts.list, List.getElem?_cons_zero, Option.some.injEq] at h
    subst h; exact hu.1
  | .cons l t rest, hu, n + 1, a, h => Alts.unamb_labels rest hu.2.2 n a (by simpa [Alts.list] using h)

theorem Alts.unamb_tags : (as : Alts) → as.Unamb → ∀ (m n : Nat) (a b : AltC), as.list[m]? = some a →
    as.list[n]? = some b → ∀ i ∈ a.labels, ∀ j ∈ b.labels, i.tag = j.tag → m = n
  | .nil, _, m, n, a, b, ha, _ => by simp [Alts.list] at ha
  | .cons l t rest, hu, m, n, a, b, ha, hb => by
    intro i hi j hj hij
    cases m with
    | zero =>
      cases n with
      | zero => rfl
      | succ n =>
        exfalso
        simp only [Alts.list, List.getElem?_cons_zero, Option.some.injEq, List.getElem?_cons_succ] at ha hb
        subst ha
        exact hu.2.1 i hi j ((Alts.labels_mem _ _).mpr ⟨b, List.mem_of_getElem? hb, hj⟩) hij
    | succ m =>
      cases n with
      | zero =>
        exfalso
        simp only [Alts.list, List.getElem?_cons_zero, Option.some.injEq, List.getElem?_cons_succ] at ha hb
        subst hb
        exact hu.2.1 j hj i ((Alts.labels_mem _ _).mpr ⟨a, List.mem_of_getElem? ha, hi⟩) hij.symm
      | succ n =>
        have := Alts.unamb_tags rest hu.2.2 m n a b (by simpa [Alts.list] using ha) (by simpa [Alts.list] using hb)
          i hi j hj hij
        omega

theorem findAlt_eq {as : Alts} (hu : as.Unamb) {n : Nat} {a : AltC} (ha : as.list[n]? = some a) {i : Id}
    (hi : i ∈ a.ty.outer) : findAlt i.tag as.alts = some n := by
  have hlab := (Alts.unamb_labels as hu n a ha i).mpr hi
  have key : ∀ cl, findAltIn cl i.tag as.alts = none ∨ findAltIn cl i.tag as.alts = some n := by
    intro cl
    cases hx : findAltIn cl i.tag as.alts with
    | none => exact .inl rfl
    | some k =>
      rw [Alts.alts_eq] at hx
      obtain ⟨b, hb, hlb⟩ := findAltIn_some hx
      have := Alts.unamb_tags as hu k n b a hb ha _ hlb i hlab rfl
      subst this
      exact .inr rfl
  have hthis : findAltIn i.cls i.tag as.alts = some n := by
    rcases key i.cls with h | h
    · exfalso
      rw [Alts.alts_eq] at h
      obtain ⟨k, hk⟩ := findAltIn_ne_none (cl := i.cls) (t := i.tag) (List.mem_of_getElem? ha) hlab
      rw [h] at hk; cases hk
    · exact h
  unfold findAlt
  rcases key .universal with h1 | h1 <;> rcases key .application with h2 | h2 <;>
  rcases key .contextSpecific with h3 | h3 <;> rcases key .private_ with h4 | h4 <;>
  simp only [h1, h2, h3, h4, Option.orElse_none, Option.orElse_some]
  cases hcl : i.cls <;> rw [hcl] at hthis <;> simp_all

theorem decodeAlt_round {as : Alts} (hes : ∀ a ∈ as.list, a.ty.EncLaws) (hrs : ∀ a ∈ as.list, a.ty.RoundLaw)
    (hu : as.Unamb) {i : Nat} {o : Obj} {x : Val} {e : Bytes} (h : as.Rep i o x e) (hval : as.Valid i x)
    (hl : e.length < 2 ^ 64) (o0 : Obj) {s : Bytes} {tag0 : Int} {v : BerView}
    (ha : BerView.assign (e ++ s) tag0 = .ok v) :
    v.valid = true ∧ ∃ o', decodeAlt as.alts o0 v = .ok (true, .alt i o') ∧ as.Rep i o' x e := by
  obtain ⟨a, hget, hrep⟩ := (Alts.rep_iff _ _ _ _ _).mp h
  have hm := List.mem_of_getElem? hget
  obtain ⟨v', j, h1, h2, _, _, h5, h6, _⟩ := elem_assign (hes a hm) hrep hl s tag0
  rw [ha] at h1
  simp only [Exec.ok.injEq] at h1
  subst h1
  obtain ⟨oi, xi, ei, hinit, hrepi, _⟩ := (hes a hm).init
  obtain ⟨o', h7, h8⟩ := hrs a hm hrep ((Alts.valid_iff _ _ _ _ hget).mp hval) hl ⟨xi, ei, hrepi⟩ ha
  have hf := findAlt_eq hu hget h5
  rw [identifier_eq_ok] at h6
  rw [← h6.2] at hf
  refine ⟨h2, o', ?_, (Alts.rep_iff _ _ _ _ _).mpr ⟨a, hget, h8⟩⟩
  have hg : as.alts[i]? = some a.alt := by rw [Alts.getElem_alts, hget]; rfl
  simp only [decodeAlt, hf, hg]
  simp [AltC.alt, hinit, h7]

theorem choice_round (cid : ChoiceIdent) (as : Alts) (hes : ∀ a ∈ as.list, a.ty.EncLaws)
    (hrs : ∀ a ∈ as.list, a.ty.RoundLaw) (hwf : (Ty.choice cid as).WF) (hu : as.Unamb) :
    (Ty.choice cid as).RoundLaw := by
  rintro o x e ⟨i, o1, x1, e1, rfl, rfl, h, rfl⟩ hval hl o0 ⟨x0, e0, i0, o2, x2, e2, rfl, rfl, h0, rfl⟩ s tag0 v ha
  cases cid with
  | untagged ids =>
    obtain ⟨_, o', h1, h2⟩ := decodeAlt_round hes hrs hu h hval hl (.alt i0 o2) ha
    exact ⟨.alt i o', by simp only [Ty.codec, choiceCodec]; exact h1, i, o', x1, e1, rfl, rfl, h2, rfl⟩
  | tagged id =>
    dsimp only at hl ha
    have hid := hwf.1
    have hc := content_le_tagged id .constructed e1
    rw [assign_tagged id hid _ _ _ _ hl] at ha
    simp only [Exec.ok.injEq] at ha
    subst ha
    obtain ⟨w, h1, h2, h3⟩ := matches_tagged id hid .constructed e1 s hl
    obtain ⟨a, hget, hrep⟩ := (Alts.rep_iff _ _ _ _ _).mp h
    obtain ⟨v', _, hv', _⟩ := elem_assign (hes a (List.mem_of_getElem? hget)) hrep (by omega) [] 0
    obtain ⟨hval', o', h5, h6⟩ := decodeAlt_round hes hrs hu h hval (by omega) (.alt i0 o2) hv'
    rw [List.append_nil] at hv'
    have hit : childIter (taggedView id .constructed e1 s) id = .ok ⟨e1, v'⟩ := by
      rw [childIter_of_matches h1 h2]; simp [Iter.mk', BerView.parse, hv']
    refine ⟨.alt i o', ?_, i, o', x1, e1, rfl, rfl, h6, rfl⟩
    simp only [Ty.codec, choiceCodec, (matches_valid h1).1, Bool.not_true, Bool.false_eq_true, if_false,
      hasCorrectHeader_true.mpr ⟨w, h1⟩, Exec.ok_bind, hit, hval']
    exact h5

/-! ## All types -/

mutual
theorem Ty.roundLaw : (t : Ty) → t.WF → t.Unamb → t.RoundLaw
  | .leaf k id, h, _ => leaf_round k id h
  | .seqOf id t, h, hu => seqOf_round id h.1 t (t.encLaws h.2) (t.roundLaw h.2 hu)
  | .seq id fs, h, hu => seq_round id h.1 fs (fs.encLaws h.2) (fs.roundLaw h.2 hu.2) hu.1
  | .set id ext fs, h, hu => set_round id h.1 ext fs (fs.encLaws h.2) (fs.roundLaw h.2 hu.2) hu.1
  | .choice (.untagged _) as, h, hu => choice_round _ as (as.encLaws h.2.1) (as.roundLaw h.2.1 hu.2) h hu.1
  | .choice (.tagged _) as, h, hu => choice_round _ as (as.encLaws h.2.1) (as.roundLaw h.2.1 hu.2) h hu.1
theorem Fields.roundLaw : (fs : Fields) → fs.WF → fs.AllUnamb → ∀ c ∈ fs.comps, c.ty.RoundLaw
  | .nil, _, _ => by intro c hc; cases hc
  | .cons k l t rest, h, hu => by
    intro c hc
    rcases List.mem_cons.mp hc with rfl | hc
    · exact t.roundLaw h.1 hu.1
    · exact rest.roundLaw h.2.2 hu.2 c hc
theorem Alts.roundLaw : (as : Alts) → as.WF → as.AllUnamb → ∀ a ∈ as.list, a.ty.RoundLaw
  | .nil, _, _ => by intro c hc; cases hc
  | .cons l t rest, h, hu => by
    intro c hc
    rcases List.mem_cons.mp hc with rfl | hc
    · exact t.roundLaw h.1 hu.1
    · exact rest.roundLaw h.2 hu.2 c hc
end

end FastBer
