import Verif.Proofs.SchemaSafeSeq
/-! # Decoding arbitrary input: SET, CHOICE, and all types -/
namespace FastBer
open Spec

/-! ## SET -/

theorem findField_some {cs : List Comp} {i : Id} {n : Nat} (h : findField i (cs.map Comp.field) = some n) :
    ∃ c, cs[n]? = some c ∧ i ∈ c.labels := by
  induction cs generalizing n with
  | nil => simp [findField] at h
  | cons c cs ih =>
    rw [List.map_cons, findField] at h
    split at h
    · rename_i hc
      simp only [Option.some.injEq] at h
      subst h
      exact ⟨c, rfl, by simpa [Comp.field] using hc⟩
    · cases hf : findField i (cs.map Comp.field) with
      | none => rw [hf] at h; simp at h
      | some m =>
        rw [hf] at h
        simp only [Option.map_some, Option.some.injEq] at h
        subst h
        obtain ⟨c', h1, h2⟩ := ih hf
        exact ⟨c', by simpa using h1, h2⟩

theorem findField_none {cs : List Comp} {i : Id} (h : findField i (cs.map Comp.field) = none) :
    ∀ c ∈ cs, i ∉ c.labels := by
  induction cs with
  | nil => intro c hc; cases hc
  | cons c cs ih =>
    rw [List.map_cons, findField] at h
    split at h
    · cases h
    · rename_i hc
      intro c' hc'
      rcases List.mem_cons.mp hc' with rfl | hc'
      · simpa [Comp.field] using hc
      · exact ih (by simpa using h) c' hc'

/-- The component an element goes to. -/
def selIdx (cs : List Comp) (v : BerView) : Option Nat :=
  match v.identifier with
  | .ok i => findField i (cs.map Comp.field)
  | _ => none

/-- The elements that go to component `n`. -/
def sel (cs : List Comp) (n : Nat) (vs : List BerView) : List BerView := vs.filter fun v => selIdx cs v == some n

def holdAt (cs : List Comp) (os : List Obj) : Prop :=
  os.length = cs.length ∧ ∀ (n : Nat) (c : Comp), cs[n]? = some c → ∃ o, os[n]? = some o ∧ c.Holds o

theorem holdAt_of {cs : List Comp} {os : List Obj} (h : compsHold cs os) : holdAt cs os := by
  obtain ⟨xs, es, h⟩ := h
  refine ⟨(compsRep_length h).1, fun n c hc => ?_⟩
  obtain ⟨o, x, e, h1, _, _, h2⟩ := compsRep_get h hc
  exact ⟨o, h1, x, e, h2⟩

theorem comps_collect (cs : List Comp) : ∀ (os : List Obj) (P : Nat → Comp → Val → Bytes → Prop),
    os.length = cs.length →
    (∀ (n : Nat) (c : Comp), cs[n]? = some c → ∃ o x e, os[n]? = some o ∧ c.Rep o x e ∧ P n c x e) →
    ∃ xs es, compsRep cs os xs es ∧ ∀ (n : Nat) (c : Comp), cs[n]? = some c → ∃ x e, xs[n]? = some x ∧ es[n]? = some e ∧ P n c x e := by
  induction cs with
  | nil =>
    intro os P hl _
    simp only [List.length_nil, List.length_eq_zero_iff] at hl
    subst hl
    exact ⟨[], [], trivial, by simp⟩
  | cons c cs ih =>
    intro os P hl h
    cases os with
    | nil => simp at hl
    | cons o os =>
      obtain ⟨xs, es, h1, h2⟩ := ih os (fun n => P (n + 1)) (by simpa using hl) (fun n c' hc' => by
        simpa using h (n + 1) c' (by simpa using hc'))
      obtain ⟨o', x, e, h3, h4, h5⟩ := h 0 c rfl
      simp only [List.getElem?_cons_zero, Option.some.injEq] at h3
      subst h3
      refine ⟨x :: xs, e :: es, ⟨h4, h1⟩, ?_⟩
      intro n c' hc'
      cases n with
      | zero =>
        simp only [List.getElem?_cons_zero, Option.some.injEq] at hc'
        subst hc'
        exact ⟨x, e, rfl, rfl, h5⟩
      | succ n => simpa using h2 n c' (by simpa using hc')

theorem compsHold_of {cs : List Comp} {os : List Obj} (h : holdAt cs os) : compsHold cs os := by
  obtain ⟨xs, es, h1, _⟩ := comps_collect cs os (fun _ _ _ _ => True) h.1 (fun n c hc => by
    obtain ⟨o, h1, x, e, h2⟩ := h.2 n c hc
    exact ⟨o, x, e, h1, h2, trivial⟩)
  exact ⟨xs, es, h1⟩

theorem holdAt_set {cs : List Comp} {os : List Obj} (h : holdAt cs os) {n : Nat} {c : Comp} (hc : cs[n]? = some c)
    {o : Obj} (ho : c.Holds o) : holdAt cs (os.set n o) := by
  refine ⟨by simp [h.1], fun m d hd => ?_⟩
  by_cases hmn : m = n
  · subst hmn
    rw [hc] at hd
    simp only [Option.some.injEq] at hd
    subst hd
    refine ⟨o, ?_, ho⟩
    rw [List.getElem?_set_self]
    have := (List.getElem?_eq_some_iff.mp hc).1
    rw [h.1]; exact this
  · rw [List.getElem?_set_ne (fun h => hmn h.symm)]
    exact h.2 m d hd

theorem setLoop_safe {cs : List Comp} (hcs : ∀ c ∈ cs, c.ty.EncLaws) (hds : ∀ c ∈ cs, c.ty.DecLaw) {U : Prop}
    (hU : U → ∀ c ∈ cs, c.ty.Unamb) (ext : Bool) {buf : Bytes} {vs : List BerView} (hel : Elements buf vs)
    (hs : Sane buf) (os : List Obj) (ks : List Nat) (hO : holdAt cs os) (hK : ks.length = cs.length) (tag0 : Int) :
    ∃ r os' ks', setLoop ext (cs.map Comp.field) buf tag0 os ks = .ok (r, os', ks') ∧ holdAt cs os' ∧
      (r = true → ks'.length = cs.length ∧ (∀ v ∈ vs, ext = true ∨ ∃ n, selIdx cs v = some n) ∧
        ∀ (n : Nat) (c : Comp), cs[n]? = some c → ks'[n]? = ks[n]?.map (· + (sel cs n vs).length) ∧
          (sel cs n vs = [] → os'[n]? = os[n]?) ∧
          (∀ v, sel cs n vs = [v] → ∃ o, os'[n]? = some o ∧ c.Accepted v o)) ∧
      (U → (∀ v ∈ vs, (ext = true ∨ ∃ n, selIdx cs v = some n) ∧
        ∀ (n : Nat) (c : Comp), selIdx cs v = some n → cs[n]? = some c → ∃ x, c.ReadsV v x) → r = true) := by
  induction hel generalizing os ks tag0 with
  | @stop bs v ha hv =>
    obtain ⟨v', ha', hv'⟩ := assign_invalid_indep ha hv tag0
    refine ⟨true, os, ks, by rw [setLoop, ha']; simp [hv'], hO, fun _ => ⟨hK, by simp, fun n c hc => ⟨?_, fun _ => rfl, ?_⟩⟩, fun _ _ => rfl⟩
    · simp [sel]
    · simp [sel]
  | @step bs v vs ha hv hr ih =>
    obtain ⟨v', ha', hsv, hrest⟩ := hs.assign tag0
    rw [assign_tag_indep ha hv tag0] at ha'
    simp only [Exec.ok.injEq] at ha'
    subst ha'
    obtain ⟨hm, hsr⟩ := hrest hv
    obtain ⟨h2, hb, _⟩ := hsv.bound hv
    rw [hm] at hb
    have hbl := hsv.berLength
    obtain ⟨cl, hcl, hi⟩ := hsv.identifier hv
    have hsi : selIdx cs v = findField ⟨cl, v.tag⟩ (cs.map Comp.field) := by simp [selIdx, hi]
    have hat := assign_tag_indep ha hv tag0
    cases hf : findField ⟨cl, v.tag⟩ (cs.map Comp.field) with
    | none =>
      rw [hf] at hsi
      have hskip : ∀ n, sel cs n (v :: vs) = sel cs n vs := by
        intro n; simp [sel, hsi]
      cases ext with
      | false =>
        refine ⟨false, os, ks, ?_, hO, (fun h => nomatch h), ?_⟩
        · rw [setLoop, hat]; simp [hv, hi, hf]
        · intro u hall
          obtain ⟨h1, _⟩ := hall v (by simp)
          rcases h1 with h1 | ⟨n, h1⟩
          · cases h1
          · rw [hsi] at h1; cases h1
      | true =>
        obtain ⟨r, os', ks', h3, h4, h5, h6⟩ := ih hsr os ks hO hK v.tag
        refine ⟨r, os', ks', ?_, h4, ?_, ?_⟩
        · rw [setLoop, hat]
          simp only [hv, if_true, hi, hf, Bool.not_true, Bool.false_eq_true, if_false]
          rw [dif_pos ⟨by omega, by omega⟩, hbl]
          exact h3
        · intro hr'
          obtain ⟨a1, a2, a3⟩ := h5 hr'
          refine ⟨a1, fun u hu => .inl rfl, fun n c hc => ?_⟩
          rw [hskip n]; exact a3 n c hc
        · intro u hall
          exact h6 u fun w hw => hall w (by simp [hw])
    | some n =>
      rw [hf] at hsi
      obtain ⟨c, hc, _⟩ := findField_some hf
      obtain ⟨o, ho, hho⟩ := hO.2 n c hc
      have hcm := List.mem_of_getElem? hc
      have hfs : (cs.map Comp.field)[n]? = some c.field := by rw [List.getElem?_map, hc]; rfl
      obtain ⟨r, o', h3, h4, h5, h6⟩ := comp_dec (hcs c hcm) (hds c hcm) hsv ⟨bs, 0, ha⟩ (fun _ => hv) hho
      have hself : sel cs n (v :: vs) = v :: sel cs n vs := by simp [sel, hsi]
      have hother : ∀ m, m ≠ n → sel cs m (v :: vs) = sel cs m vs := by
        intro m hmn
        have : ¬ (selIdx cs v == some m) = true := by
          rw [hsi]; simp only [beq_iff_eq, Option.some.injEq]; exact fun h => hmn h.symm
        unfold sel; rw [List.filter_cons, if_neg this]
      cases r with
      | false =>
        refine ⟨false, os.set n o', ks, ?_, holdAt_set hO hc h4, (fun h => nomatch h), ?_⟩
        · rw [setLoop, hat]; simp only [hv, if_true, hi, hf, hfs, ho, h3]; rfl
        · intro u hall
          exact h6 (hU u c hcm) ((hall v (by simp)).2 n c hsi hc)
      | true =>
        obtain ⟨r, os', ks', b1, b2, b3, b4⟩ := ih hsr (os.set n o') (ks.modify n (· + 1)) (holdAt_set hO hc h4)
          (by simp [hK]) v.tag
        refine ⟨r, os', ks', ?_, b2, ?_, ?_⟩
        · rw [setLoop, hat]
          simp only [hv, if_true, hi, hf, hfs, ho, h3, Bool.not_true, Bool.false_eq_true, if_false]
          rw [dif_pos ⟨by omega, by omega⟩, hbl]
          exact b1
        · intro hr'
          obtain ⟨a1, a2, a3⟩ := b3 hr'
          refine ⟨a1, ?_, ?_⟩
          · intro w hw
            rcases List.mem_cons.mp hw with rfl | hw
            · exact .inr ⟨n, hsi⟩
            · exact a2 w hw
          · intro m d hd
            obtain ⟨c1, c2, c3⟩ := a3 m d hd
            by_cases hmn : m = n
            · subst hmn
              rw [hc] at hd
              simp only [Option.some.injEq] at hd
              subst hd
              rw [hself]
              refine ⟨?_, (fun h => nomatch h), ?_⟩
              · rw [c1, List.getElem?_modify_eq]
                cases ks[m]? with
                | none => rfl
                | some k => simp; omega
              · intro w hw
                simp only [List.cons.injEq] at hw
                obtain ⟨rfl, hnil⟩ := hw
                refine ⟨o', ?_, h5 rfl⟩
                rw [c2 hnil, List.getElem?_set_self]
                have := (List.getElem?_eq_some_iff.mp hc).1
                rw [hO.1]; exact this
            · rw [hother m hmn]
              refine ⟨?_, ?_, c3⟩
              · rw [c1, List.getElem?_modify]
                have : ¬ n = m := fun h => hmn h.symm
                simp [this]
              · intro h
                rw [c2 h, List.getElem?_set_ne (fun h => hmn h.symm)]
        · intro u hall
          exact b4 u fun w hw => hall w (by simp [hw])

theorem setFinish_safe {cs : List Comp} {os : List Obj} {ks : List Nat} (hO : holdAt cs os) (hK : ks.length = cs.length) :
    ∃ r os', setFinish (cs.map Comp.field) os ks = .ok (r, os') ∧ holdAt cs os' ∧
      (r = true ↔ ∀ (n : Nat) (c : Comp) (k : Nat), cs[n]? = some c → ks[n]? = some k → (k = 0 → c.kind ≠ .mandatory) ∧ k ≤ 1) ∧
      (r = true → ∀ (n k : Nat), ks[n]? = some k → os'[n]? = if k = 0 then some Obj.none else os[n]?) := by
  induction cs generalizing os ks with
  | nil =>
    have h1 := hO.1
    simp only [List.length_nil, List.length_eq_zero_iff] at h1 hK
    subst h1; subst hK
    exact ⟨true, [], rfl, hO, by simp, by simp⟩
  | cons c cs ih =>
    have h1 := hO.1
    cases os with
    | nil => simp at h1
    | cons o os =>
      cases ks with
      | nil => simp at hK
      | cons k ks =>
        have hO' : holdAt cs os := ⟨by simpa using h1, fun n d hd => by simpa using hO.2 (n + 1) d (by simpa using hd)⟩
        obtain ⟨r, os', h2, h3, h4, h5⟩ := ih hO' (by simpa using hK)
        obtain ⟨o1, ho1, hh⟩ := hO.2 0 c rfl
        simp only [List.getElem?_cons_zero, Option.some.injEq] at ho1
        subst ho1
        by_cases hbad : k = 0 ∧ c.field.isMandatory = true
        · refine ⟨false, o :: os, by simp [setFinish, hbad], hO, ?_, fun h => nomatch h⟩
          simp only [Bool.false_eq_true, false_iff]
          intro hall
          exact (hall 0 c k rfl rfl).1 hbad.1 (isMandatory_iff.mp hbad.2)
        · by_cases hmany : 1 < k
          · refine ⟨false, o :: os, ?_, hO, ?_, fun h => nomatch h⟩
            · have : k ≠ 0 := by omega
              simp [setFinish, this, hmany]
            · simp only [Bool.false_eq_true, false_iff]
              intro hall
              have := (hall 0 c k rfl rfl).2
              omega
          · refine ⟨r, (if k = 0 then .none else o) :: os', ?_, ?_, ?_, ?_⟩
            · rw [List.map_cons, setFinish, if_neg hbad, if_neg hmany, h2]; rfl
            · refine ⟨by simp [h3.1], ?_⟩
              intro n d hd
              cases n with
              | zero =>
                simp only [List.getElem?_cons_zero, Option.some.injEq] at hd
                subst hd
                refine ⟨_, rfl, ?_⟩
                by_cases hk0 : k = 0
                · rw [if_pos hk0]
                  have : c.kind ≠ .mandatory := fun h => hbad ⟨hk0, isMandatory_iff.mpr h⟩
                  exact ⟨_, _, comp_mk_none this⟩
                · rw [if_neg hk0]; exact hh
              | succ n => simpa using h3.2 n d (by simpa using hd)
            · rw [h4]
              constructor
              · intro hall n d k' hd hk'
                cases n with
                | zero =>
                  simp only [List.getElem?_cons_zero, Option.some.injEq] at hd hk'
                  subst hd; subst hk'
                  exact ⟨fun hk0 h => hbad ⟨hk0, isMandatory_iff.mpr h⟩, by omega⟩
                | succ n => exact hall n d k' (by simpa using hd) (by simpa using hk')
              · intro hall n d k' hd hk'
                exact hall (n + 1) d k' (by simpa using hd) (by simpa using hk')
            · intro hr n k' hk'
              cases n with
              | zero =>
                simp only [List.getElem?_cons_zero, Option.some.injEq] at hk'
                subst hk'
                by_cases hk0 : k = 0 <;> simp [hk0]
              | succ n => simpa using h5 hr n k' (by simpa using hk')

/-! ### Sizes -/

theorem flatten_le (es : List Bytes) : ∀ (f : Nat → Nat), (∀ n e, es[n]? = some e → e.length ≤ f n) →
    es.flatten.length ≤ ((List.range es.length).map f).sum := by
  induction es with
  | nil => intro f _; simp
  | cons e es ih =>
    intro f h
    have h1 := ih (fun n => f (n + 1)) (fun n e' he => h (n + 1) e' (by simpa using he))
    have h2 := h 0 e rfl
    rw [List.flatten_cons, List.length_append, List.length_cons, List.range_succ_eq_map, List.map_cons, List.sum_cons,
      List.map_map]
    have : ((List.range es.length).map (f ∘ Nat.succ)).sum = ((List.range es.length).map fun n => f (n + 1)).sum := rfl
    omega

theorem sum_map_add (l : List Nat) (f g : Nat → Nat) :
    (l.map fun n => f n + g n).sum = (l.map f).sum + (l.map g).sum := by
  induction l with
  | nil => rfl
  | cons a l ih => simp only [List.map_cons, List.sum_cons, ih]; omega

theorem sum_single (N : Nat) (o : Option Nat) (s : Nat) :
    ((List.range N).map fun n => if o == some n then s else 0).sum ≤ s := by
  have key : ((List.range N).map fun n => if o == some n then s else 0).sum =
      if (∃ n, o = some n ∧ n < N) then s else 0 := by
    induction N with
    | zero => simp
    | succ N ih =>
      rw [List.range_succ, List.map_append, List.sum_append, ih]
      simp only [List.map_cons, List.map_nil, List.sum_cons, List.sum_nil, Nat.add_zero]
      by_cases h : o = some N
      · subst h
        rw [if_neg (by rintro ⟨n, h1, h2⟩; cases h1; omega), if_pos (by simp), if_pos ⟨N, rfl, by omega⟩]
        omega
      · have hb : (o == some N) = false := by simpa using h
        rw [hb]
        have hiff : (∃ n, o = some n ∧ n < N + 1) ↔ ∃ n, o = some n ∧ n < N := by
          constructor
          · rintro ⟨n, a, b⟩
            refine ⟨n, a, ?_⟩
            have : n ≠ N := by rintro rfl; exact h a
            omega
          · rintro ⟨n, a, b⟩; exact ⟨n, a, by omega⟩
        simp only [hiff, Bool.false_eq_true, if_false, Nat.add_zero]
  rw [key]
  split <;> omega

def vsize (vs : List BerView) : Nat := (vs.map fun v => v.hdr + v.len).sum

theorem sel_size (cs : List Comp) (N : Nat) (vs : List BerView) :
    ((List.range N).map fun n => vsize (sel cs n vs)).sum ≤ vsize vs := by
  induction vs with
  | nil =>
    have : ∀ l : List Nat, (l.map fun n => vsize (sel cs n [])).sum = 0 := by
      intro l
      induction l with
      | nil => rfl
      | cons a l ih => rw [List.map_cons, List.sum_cons, ih]; simp [sel, vsize]
    rw [this]; exact Nat.zero_le _
  | cons v vs ih =>
    have h1 : ∀ n, vsize (sel cs n (v :: vs)) = (if selIdx cs v == some n then v.hdr + v.len else 0) + vsize (sel cs n vs) := by
      intro n
      rw [sel, List.filter_cons]
      split
      · rename_i h; simp [vsize, sel]
      · rename_i h; simp [sel]
    have h2 : vsize (v :: vs) = v.hdr + v.len + vsize vs := by simp [vsize]
    simp only [h1]
    rw [sum_map_add, h2]
    have := sum_single N (selIdx cs v) (v.hdr + v.len)
    omega

/-! ### Reading -/

def compsReadsSet : List Comp → List BerView → List Val → Prop
  | [], _, xs => xs = []
  | c :: cs, vs, xs => ∃ x xs', xs = x :: xs' ∧ compReadsSet c.kind c.ty.Reads (vs.filter (hasId c.ty.outer)) x ∧
      compsReadsSet cs vs xs'

theorem Fields.readsSet_iff : (fs : Fields) → (vs : List BerView) → (xs : List Val) →
    (fs.ReadsSet vs xs ↔ compsReadsSet fs.comps vs xs)
  | .nil, vs, xs => Iff.rfl
  | .cons k l t rest, vs, xs => by
    simp only [Fields.ReadsSet, Fields.comps, compsReadsSet, Fields.readsSet_iff rest]

theorem compsReadsSet_get {cs : List Comp} {vs : List BerView} {xs : List Val} (h : compsReadsSet cs vs xs) {n : Nat}
    {c : Comp} (hc : cs[n]? = some c) :
    ∃ x, xs[n]? = some x ∧ compReadsSet c.kind c.ty.Reads (vs.filter (hasId c.ty.outer)) x := by
  induction cs generalizing xs n with
  | nil => simp at hc
  | cons d cs ih =>
    obtain ⟨x, xs', rfl, h1, h2⟩ := h
    cases n with
    | zero =>
      simp only [List.getElem?_cons_zero, Option.some.injEq] at hc
      subst hc
      exact ⟨x, rfl, h1⟩
    | succ n => simpa using ih h2 (by simpa using hc)

theorem compsReadsSet_mk {cs : List Comp} {vs : List BerView} {xs : List Val} (hl : xs.length = cs.length)
    (h : ∀ (n : Nat) (c : Comp), cs[n]? = some c → ∃ x, xs[n]? = some x ∧
      compReadsSet c.kind c.ty.Reads (vs.filter (hasId c.ty.outer)) x) : compsReadsSet cs vs xs := by
  induction cs generalizing xs with
  | nil => simpa [compsReadsSet] using hl
  | cons d cs ih =>
    cases xs with
    | nil => simp at hl
    | cons x xs =>
      obtain ⟨x', h1, h2⟩ := h 0 d rfl
      simp only [List.getElem?_cons_zero, Option.some.injEq] at h1
      subst h1
      exact ⟨x, xs, rfl, h2, ih (by simpa using hl) fun n c hc => by simpa using h (n + 1) c (by simpa using hc)⟩

theorem compsValid_mk {cs : List Comp} {xs : List Val} (hl : xs.length = cs.length)
    (h : ∀ (n : Nat) (c : Comp), cs[n]? = some c → ∃ x, xs[n]? = some x ∧ c.Valid x) : compsValid cs xs := by
  induction cs generalizing xs with
  | nil => cases xs <;> trivial
  | cons d cs ih =>
    cases xs with
    | nil => simp at hl
    | cons x xs =>
      obtain ⟨x', h1, h2⟩ := h 0 d rfl
      simp only [List.getElem?_cons_zero, Option.some.injEq] at h1
      subst h1
      exact ⟨h2, ih (by simpa using hl) fun n c hc => by simpa using h (n + 1) c (by simpa using hc)⟩

theorem compReadsSet_opt {k : Kind} (hk : k ≠ .mandatory) {R : BerView → Val → Prop}
    {vs : List BerView} {x : Val} : compReadsSet k R vs x ↔
      (vs = [] ∧ x = .absent) ∨ ∃ v x', vs = [v] ∧ x = .present x' ∧ R v x' := by
  cases k with
  | mandatory => exact (hk rfl).elim
  | optional => exact Iff.rfl
  | default d => exact Iff.rfl

/-- In an unambiguous SET the switch sends an element to the component with its identifier. -/
theorem selIdx_iff {cs : List Comp} (hu : compSetUnamb cs) {n : Nat} {c : Comp} (hc : cs[n]? = some c) (v : BerView) :
    selIdx cs v = some n ↔ hasId c.ty.outer v = true := by
  rw [hasId_iff]
  constructor
  · intro h
    unfold selIdx at h
    split at h
    · rename_i i hi
      obtain ⟨c', h1, h2⟩ := findField_some h
      rw [hc] at h1
      simp only [Option.some.injEq] at h1
      subst h1
      exact ⟨i, hi, (compSetUnamb_get hu hc i).mp h2⟩
    · cases h
  · rintro ⟨i, hi, hm⟩
    simp [selIdx, hi, findField_eq hu hc hm]

theorem sel_eq {cs : List Comp} (hu : compSetUnamb cs) {n : Nat} {c : Comp} (hc : cs[n]? = some c) (vs : List BerView) :
    sel cs n vs = vs.filter (hasId c.ty.outer) := by
  unfold sel
  congr 1
  funext v
  have := selIdx_iff hu hc v
  cases h : hasId c.ty.outer v with
  | true => simpa using this.mpr h
  | false =>
    rw [h] at this
    simpa using this

theorem Fields.outer_mem : (fs : Fields) → (i : Id) → (i ∈ fs.outer ↔ ∃ c ∈ fs.comps, i ∈ c.ty.outer)
  | .nil, i => by simp [Fields.outer, Fields.comps]
  | .cons k l t rest, i => by simp [Fields.outer, Fields.comps, Fields.outer_mem rest]

theorem known_iff {fs : Fields} (hu : compSetUnamb fs.comps) (v : BerView) :
    (∃ n, selIdx fs.comps v = some n) ↔ hasId fs.outer v = true := by
  constructor
  · rintro ⟨n, h⟩
    have : ∃ c, fs.comps[n]? = some c := by
      unfold selIdx at h
      split at h
      · obtain ⟨c, h1, _⟩ := findField_some h; exact ⟨c, h1⟩
      · cases h
    obtain ⟨c, hc⟩ := this
    obtain ⟨i, h1, h2⟩ := hasId_iff.mp ((selIdx_iff hu hc v).mp h)
    exact hasId_iff.mpr ⟨i, h1, (fs.outer_mem i).mpr ⟨c, List.mem_of_getElem? hc, h2⟩⟩
  · intro h
    obtain ⟨i, h1, h2⟩ := hasId_iff.mp h
    obtain ⟨c, hc, h3⟩ := (fs.outer_mem i).mp h2
    obtain ⟨n, hn⟩ := List.mem_iff_getElem?.mp hc
    exact ⟨n, (selIdx_iff hu hn v).mpr (hasId_iff.mpr ⟨i, h1, h3⟩)⟩

theorem set_dec (id : Ident) (hid : identOk id) (ext : Bool) (fs : Fields) (hfs : ∀ c ∈ fs.comps, c.ty.EncLaws)
    (hds : ∀ c ∈ fs.comps, c.ty.DecLaw)
    (hCU : (Ty.set id ext fs).Unamb → (Ty.set id ext fs).Proper) (hC : (Ty.set id ext fs).Unamb → ∀ c ∈ fs.comps, c.ty.Unamb)
    (hU : (Ty.set id ext fs).Proper → compSetUnamb fs.comps ∧ ∀ c ∈ fs.comps, c.ty.Proper) :
    (Ty.set id ext fs).DecLaw := by
  rintro v hs hp _ o0 ⟨x0, e0, os0, xs0, es0, rfl, rfl, rfl, h0⟩
  have h0' : compsHold fs.comps os0 := ⟨xs0, es0, (fs.rep_iff _ _ _).mp h0⟩
  have hdec : (Ty.set id ext fs).codec.decode (.struct os0) v =
      decodeCollection id fs.fields (decodeSet ext fs.fields) os0 v := rfl
  have mk : ∀ os, compsHold fs.comps os → (Ty.set id ext fs).Holds (.struct os) := by
    rintro os ⟨xs, es, h⟩
    exact ⟨_, _, os, xs, es, rfl, rfl, rfl, (fs.rep_iff _ _ _).mpr h⟩
  rw [hdec]
  rcases decodeCollection_safe (id := id) (fs := fs.fields) (body := decodeSet ext fs.fields) (os0 := os0) hs with
    ⟨hno, h1⟩ | ⟨w, c, it, vs, hm, hc, hcl, hsc, hbuf, ha, hel, h1⟩
  · refine ⟨false, _, h1, mk _ h0', (fun h => nomatch h), ?_⟩
    rintro _ ⟨x, w, _, _, _, hm, _⟩
    exact (hno w hm).elim
  · rw [h1]
    have hvb : vsize vs ≤ c.length := by
      obtain ⟨vs', h2, _, h3⟩ := sane_elements hsc
      rw [hel.unique h2]; exact h3
    have acc : ∀ xs es os, compsRep fs.comps os xs es → compsValid fs.comps xs → es.flatten.length ≤ c.length →
        ((Ty.set id ext fs).Proper → compsReadsSet fs.comps vs xs ∧
          ∀ u ∈ vs, ext = true ∨ fs = .nil ∨ hasId fs.outer u = true) →
        (Ty.set id ext fs).Accepted v (.struct os) := by
      intro xs es os a1 a2 a3 a4
      exact ⟨.struct xs, _, id.outer, ⟨os, xs, es, rfl, rfl, rfl, (fs.rep_iff _ _ _).mpr a1⟩,
        (fs.valid_iff xs).mpr a2, matches_min hid hs hp hm _ _ (by omega), (matches_valid hm).1, matches_outer hm,
        by simp [Ty.outer],
        fun u => ⟨w, c, vs, xs, hm, hc, hel, rfl, (fs.readsSet_iff vs xs).mpr (a4 u).1, (a4 u).2⟩⟩
    by_cases he : fs.fields.isEmpty = true
    · have hnil : fs = .nil := by
        cases fs with
        | nil => rfl
        | cons k l t rest => simp [Fields.fields] at he
      subst hnil
      rw [if_pos he]
      obtain ⟨xs, es, hr⟩ := h0'
      obtain ⟨rfl, rfl, rfl⟩ := compsRep_nil.mp hr
      have : (Ty.set id ext .nil).Accepted v (.struct []) := acc [] [] [] trivial trivial (by simp)
        (fun _ => ⟨rfl, fun _ _ => .inr (.inl rfl)⟩)
      exact ⟨true, _, rfl, this.holds, fun _ => this, fun _ _ => rfl⟩
    · rw [if_neg he]
      have hnn : fs ≠ .nil := by rintro rfl; exact he rfl
      obtain ⟨r, os, ks, b1, b2, b3, b4⟩ := setLoop_safe hfs hds (U := (Ty.set id ext fs).Unamb) hC
        ext hel hsc os0 (List.replicate fs.comps.length 0) (holdAt_of h0') (by simp) 0
      have hlen : fs.fields.length = fs.comps.length := by rw [Fields.fields_eq]; simp
      have hb1 : setLoop ext fs.fields it.buf 0 os0 (List.replicate fs.fields.length 0) = .ok (r, os, ks) := by
        rw [hbuf, hlen, Fields.fields_eq]; exact b1
      -- the specification makes every element readable
      have readable : ∀ (_ : (Ty.set id ext fs).Proper) (x : Val), (Ty.set id ext fs).Reads v x →
          (∀ u ∈ vs, (ext = true ∨ ∃ n, selIdx fs.comps u = some n) ∧
            ∀ (n : Nat) (d : Comp), selIdx fs.comps u = some n → fs.comps[n]? = some d → ∃ y, d.ReadsV u y) ∧
          ∀ (n : Nat) (d : Comp), fs.comps[n]? = some d → ((sel fs.comps n vs).length = 0 → d.kind ≠ .mandatory) ∧
            (sel fs.comps n vs).length ≤ 1 := by
        rintro u x ⟨w', c', vs', xs, hm', hc', hel', rfl, hR, hknown⟩
        have := matches_unique hm hm'
        subst this
        rw [hc] at hc'
        simp only [Exec.ok.injEq] at hc'
        subst hc'
        have := hel.unique hel'
        subst this
        have hR' := (fs.readsSet_iff _ _).mp hR
        have hun := (hU u).1
        refine ⟨fun q hq => ⟨?_, ?_⟩, ?_⟩
        · rcases hknown q hq with h | h | h
          · exact .inl h
          · exact (hnn h).elim
          · exact .inr ((known_iff hun q).mpr h)
        · intro n d hsel hd
          obtain ⟨y, _, hy⟩ := compsReadsSet_get hR' hd
          have hmem : q ∈ vs.filter (hasId d.ty.outer) :=
            List.mem_filter.mpr ⟨hq, (selIdx_iff hun hd q).mp hsel⟩
          by_cases hk : d.kind = .mandatory
          · simp only [compReadsSet, hk] at hy
            obtain ⟨q', h2, h3⟩ := hy
            rw [h2] at hmem
            simp only [List.mem_singleton] at hmem
            subst hmem
            exact ⟨y, by simpa [Comp.ReadsV, hk] using h3⟩
          · rcases (compReadsSet_opt hk).mp hy with ⟨h2, _⟩ | ⟨q', x', h2, rfl, h3⟩
            · rw [h2] at hmem; cases hmem
            · rw [h2] at hmem
              simp only [List.mem_singleton] at hmem
              subst hmem
              exact ⟨_, (Comp.readsV_opt hk).mpr ⟨x', rfl, h3⟩⟩
        · intro n d hd
          rw [sel_eq hun hd]
          obtain ⟨y, _, hy⟩ := compsReadsSet_get hR' hd
          by_cases hk : d.kind = .mandatory
          · simp only [compReadsSet, hk] at hy
            obtain ⟨q', h2, _⟩ := hy
            rw [h2]
            exact ⟨fun h => by simp at h, by simp⟩
          · rcases (compReadsSet_opt hk).mp hy with ⟨h2, _⟩ | ⟨q', x', h2, _⟩ <;> (rw [h2]; exact ⟨fun _ => hk, by simp⟩)
      cases r with
      | false =>
        refine ⟨false, .struct os, by simp [decodeSet, hb1], mk os (compsHold_of b2), (fun h => nomatch h), ?_⟩
        rintro u ⟨x, hx⟩
        exact b4 u (readable (hCU u) x hx).1
      | true =>
        obtain ⟨hkl, hkn, hpt⟩ := b3 rfl
        obtain ⟨r2, os2, d1, d2, d3, d4⟩ := setFinish_safe b2 hkl
        have hk0 : ∀ n d, fs.comps[n]? = some d → ks[n]? = some (sel fs.comps n vs).length := by
          intro n d hd
          have hlt := (List.getElem?_eq_some_iff.mp hd).1
          rw [(hpt n d hd).1, List.getElem?_replicate, if_pos hlt]
          simp
        refine ⟨r2, .struct os2, ?_, mk os2 (compsHold_of d2), ?_, ?_⟩
        · rw [← Fields.fields_eq] at d1
          simp [decodeSet, hb1, d1]
        · intro hr2
          have hall := d3.mp hr2
          have hos := d4 hr2
          obtain ⟨xs, es, f1, f2⟩ := comps_collect fs.comps os2
            (fun n d x e => d.Valid x ∧ e.length ≤ vsize (sel fs.comps n vs) ∧
              ((Ty.set id ext fs).Proper → compReadsSet d.kind d.ty.Reads (vs.filter (hasId d.ty.outer)) x)) d2.1 (by
            intro n d hd
            have hk := hk0 n d hd
            obtain ⟨g1, g2⟩ := hall n d _ hd hk
            have ho := hos n _ hk
            match hsel : sel fs.comps n vs with
            | [] =>
              rw [hsel] at ho g1
              have hkm := g1 rfl
              refine ⟨.none, .absent, [], by simpa using ho, comp_mk_none hkm, Comp.valid_opt hkm, by simp, fun u => ?_⟩
              rw [← sel_eq (hU u).1 hd, hsel]
              exact (compReadsSet_opt hkm).mpr (.inl ⟨rfl, rfl⟩)
            | [q] =>
              rw [hsel] at ho
              obtain ⟨o, j1, x, e, i, j2, j3, j4, j5, j6, j7, j8⟩ := (hpt n d hd).2.2 q hsel
              refine ⟨o, x, e, by simpa [j1] using ho, j2, j3, by simpa [vsize] using j4, fun u => ?_⟩
              rw [← sel_eq (hU u).1 hd, hsel]
              have := j8 ((hU u).2 d (List.mem_of_getElem? hd))
              by_cases hk : d.kind = .mandatory
              · simp only [Comp.ReadsV, hk] at this
                simp only [compReadsSet, hk]
                exact ⟨q, rfl, this⟩
              · obtain ⟨x', rfl, hR⟩ := (Comp.readsV_opt hk).mp this
                exact (compReadsSet_opt hk).mpr (.inr ⟨q, x', rfl, rfl, hR⟩)
            | _ :: _ :: _ => rw [hsel] at g2; simp at g2)
          have hxl := (compsRep_length f1).2.1
          have hel' := (compsRep_length f1).2.2
          refine acc xs es os2 f1 ?_ ?_ ?_
          · exact compsValid_mk hxl fun n d hd => by
              obtain ⟨x, e, k1, _, k3, _⟩ := f2 n d hd; exact ⟨x, k1, k3⟩
          · have := flatten_le es (fun n => vsize (sel fs.comps n vs)) (by
              intro n e he
              have hlt := (List.getElem?_eq_some_iff.mp he).1
              rw [hel'] at hlt
              obtain ⟨x, e', _, k2, _, k4, _⟩ := f2 n _ (List.getElem?_eq_getElem hlt)
              rw [he] at k2
              simp only [Option.some.injEq] at k2
              rw [k2]; exact k4)
            have h2 := sel_size fs.comps es.length vs
            omega
          · intro u
            refine ⟨compsReadsSet_mk hxl fun n d hd => ?_, ?_⟩
            · obtain ⟨x, e, k1, _, _, _, k5⟩ := f2 n d hd
              exact ⟨x, k1, k5 u⟩
            · intro q hq
              rcases hkn q hq with h | h
              · exact .inl h
              · exact .inr (.inr ((known_iff (hU u).1 q).mp h))
        · rintro u ⟨x, hx⟩
          rw [d3]
          intro n d k hd hk
          have := hk0 n d hd
          rw [hk] at this
          simp only [Option.some.injEq] at this
          rw [this]
          exact (readable (hCU u) x hx).2 n d hd

/-! ## CHOICE -/

theorem Alts.reads_iff : (as : Alts) → (i : Nat) → (v : BerView) → (x : Val) →
    (as.Reads i v x ↔ ∃ a, as.list[i]? = some a ∧ a.ty.Reads v x)
  | .nil, i, v, x => by simp [Alts.Reads, Alts.list]
  | .cons l t rest, 0, v, x => by simp [Alts.Reads, Alts.list]
  | .cons l t rest, i + 1, v, x => by simp [Alts.Reads, Alts.list, Alts.reads_iff rest]

theorem Alts.outer_iff : (as : Alts) → (i : Id) → (i ∈ as.outer ↔ ∃ a ∈ as.list, i ∈ a.ty.outer)
  | .nil, i => by simp [Alts.outer, Alts.list]
  | .cons l t rest, i => by simp [Alts.outer, Alts.list, Alts.outer_iff rest]

theorem findAlt_some {as : Alts} {t : Int} {n : Nat} (h : findAlt t as.alts = some n) : ∃ a, as.list[n]? = some a := by
  rw [Alts.alts_eq] at h
  unfold findAlt at h
  cases h1 : findAltIn .universal t (as.list.map AltC.alt) with
  | some k =>
    rw [h1] at h; simp only [Option.orElse_some, Option.some.injEq] at h; subst h
    obtain ⟨a, ha, _⟩ := findAltIn_some h1; exact ⟨a, ha⟩
  | none =>
    rw [h1] at h; simp only [Option.orElse_none] at h
    cases h2 : findAltIn .application t (as.list.map AltC.alt) with
    | some k =>
      rw [h2] at h; simp only [Option.orElse_some, Option.some.injEq] at h; subst h
      obtain ⟨a, ha, _⟩ := findAltIn_some h2; exact ⟨a, ha⟩
    | none =>
      rw [h2] at h; simp only [Option.orElse_none] at h
      cases h3 : findAltIn .contextSpecific t (as.list.map AltC.alt) with
      | some k =>
        rw [h3] at h; simp only [Option.orElse_some, Option.some.injEq] at h; subst h
        obtain ⟨a, ha, _⟩ := findAltIn_some h3; exact ⟨a, ha⟩
      | none =>
        rw [h3] at h; simp only [Option.orElse_none] at h
        obtain ⟨a, ha, _⟩ := findAltIn_some h; exact ⟨a, ha⟩

/-- Dispatch on a sane valid element. -/
theorem decodeAlt_safe {as : Alts} (hes : ∀ a ∈ as.list, a.ty.EncLaws) (hds : ∀ a ∈ as.list, a.ty.DecLaw) {U C : Prop}
    (hC : C → as.Unamb ∧ ∀ a ∈ as.list, a.ty.Unamb) (hU : U → ∀ a ∈ as.list, a.ty.Proper) {v : BerView} (hs : SaneView v) (hp : Parsed v)
    (hv : v.valid = true) (j : Nat) (o0 : Obj) (h0 : ∃ x e, as.Rep j o0 x e) :
    ∃ r i o, decodeAlt as.alts (.alt j o0) v = .ok (r, .alt i o) ∧ (∃ x e, as.Rep i o x e) ∧
      (r = true → ∃ x e id, as.Rep i o x e ∧ as.Valid i x ∧ e.length ≤ v.hdr + v.len ∧ v.identifier = .ok id ∧
        id ∈ as.outer ∧ (∃ a, as.list[i]? = some a ∧ id ∈ a.ty.outer) ∧ (U → as.Reads i v x)) ∧
      (C → (∃ i x, as.Reads i v x) → r = true) := by
  obtain ⟨cl, hcl, hi⟩ := hs.identifier hv
  have hfind : C → ∀ i x, as.Reads i v x → findAlt v.tag as.alts = some i := by
    intro u i x hx
    obtain ⟨a, ha, hR⟩ := (as.reads_iff i v x).mp hx
    obtain ⟨k, h1, h2⟩ := hasId_iff.mp (a.ty.reads_outer v x hR hv)
    have := findAlt_eq (hC u).1 ha h2
    rw [(identifier_eq_ok.mp h1).2]; exact this
  unfold decodeAlt
  cases hf : findAlt v.tag as.alts with
  | none =>
    refine ⟨false, j, o0, by simp [hi], h0, (fun h => nomatch h), ?_⟩
    rintro u ⟨i, x, hx⟩
    rw [hfind u i x hx] at hf; cases hf
  | some n =>
    obtain ⟨a, ha⟩ := findAlt_some hf
    have hmem := List.mem_of_getElem? ha
    have hga : as.alts[n]? = some a.alt := by rw [Alts.getElem_alts, ha]; rfl
    obtain ⟨oi, xi, ei, h1, h2, _⟩ := (hes a hmem).init
    obtain ⟨r, o', h3, ⟨x2, e2, h4⟩, h5, h6⟩ := hds a hmem hs hp (fun _ => hv) ⟨xi, ei, h2⟩
    refine ⟨r, n, o', ?_, ⟨x2, e2, (as.rep_iff _ _ _ _).mpr ⟨a, ha, h4⟩⟩, ?_, ?_⟩
    · simp only [hga]
      show (do let x ← a.ty.codec.init; let r ← a.ty.codec.decode x v; .ok (r.1, Obj.alt n r.2)) = _
      simp [h1, h3]
    · intro hr
      obtain ⟨x, e, i, a1, a2, a3, a4, a5, a6, a7⟩ := h5 hr
      exact ⟨x, e, i, (as.rep_iff _ _ _ _).mpr ⟨a, ha, a1⟩, (as.valid_iff n x a ha).mpr a2, a3, a5,
        (as.outer_iff i).mpr ⟨a, hmem, a6⟩, ⟨a, ha, a6⟩, fun u => (as.reads_iff _ _ _).mpr ⟨a, ha, a7 (hU u a hmem)⟩⟩
    · rintro u ⟨i, x, hx⟩
      have := hfind u i x hx
      rw [hf] at this
      simp only [Option.some.injEq] at this
      subst this
      obtain ⟨a', ha', hR⟩ := (as.reads_iff _ _ _).mp hx
      rw [ha] at ha'
      simp only [Option.some.injEq] at ha'
      subst ha'
      exact h6 ((hC u).2 a hmem) ⟨x, hR⟩

theorem choice_dec (cid : ChoiceIdent) (as : Alts) (hes : ∀ a ∈ as.list, a.ty.EncLaws)
    (hds : ∀ a ∈ as.list, a.ty.DecLaw) (hwf : (Ty.choice cid as).WF)
    (hC : (Ty.choice cid as).Unamb → as.Unamb ∧ ∀ a ∈ as.list, a.ty.Unamb)
    (hU : (Ty.choice cid as).Proper → ∀ a ∈ as.list, a.ty.Proper) : (Ty.choice cid as).DecLaw := by
  rintro v hs hp hg o0 ⟨x0, e0, j, o, x, e, rfl, rfl, h0, _⟩
  cases cid with
  | untagged ids =>
    have hv := hg trivial
    obtain ⟨r, i, o', h1, ⟨x1, e1, h2⟩, h3, h4⟩ := decodeAlt_safe hes hds hC hU hs hp hv j o ⟨x, e, h0⟩
    refine ⟨r, .alt i o', h1, ⟨.alt i x1, e1, i, o', x1, e1, rfl, rfl, h2, rfl⟩, ?_, ?_⟩
    · intro hr
      obtain ⟨y, f, id, a1, a2, a3, a4, a5, _, a6⟩ := h3 hr
      exact ⟨.alt i y, f, id, ⟨i, o', y, f, rfl, rfl, a1, rfl⟩, a2, a3, hv, a4, a5,
        fun u => by simpa only [Ty.Reads] using ⟨i, y, rfl, a6 u⟩⟩
    · rintro u ⟨x, hx⟩
      simp only [Ty.Reads] at hx
      obtain ⟨i, y, rfl, hx⟩ := hx
      exact h4 u ⟨i, y, hx⟩
  | tagged id =>
    have hid : identOk id := hwf.1
    have hold : (Ty.choice (.tagged id) as).Holds (.alt j o) := ⟨_, _, j, o, x, e, rfl, rfl, h0, rfl⟩
    cases hv : v.valid with
    | false =>
      refine ⟨false, .alt j o, by simp [Ty.codec, choiceCodec, hv], hold, (fun h => nomatch h), ?_⟩
      rintro u ⟨x, hx⟩
      simp only [Ty.Reads] at hx
      obtain ⟨w, _, _, _, _, hm, _⟩ := hx
      rw [(matches_valid hm).1] at hv; cases hv
    | true =>
      rcases hasCorrectHeader_cases hs id .constructed with ⟨h1, w, hm⟩ | ⟨h1, hno⟩
      · have hsw := matches_sane hs hm
        have hwv := (matches_valid hm).2
        have hwk : w.construction = .ok .constructed := by
          cases id with
          | single i => obtain ⟨_, _, h3, rfl⟩ := hm; exact h3
          | double o i => obtain ⟨_, _, _, _, _, _, _, _, h3⟩ := hm; exact h3
        have hsc := hsw.inner hwv hwk
        have hc := hsw.content
        have hcl := content_ok_length hc
        generalize (w.mem.drop w.hdr).take w.len = c at hsc hc hcl
        obtain ⟨q, hq, hsq, hq2⟩ := hsc.assign 0
        have hci : childIter v id = .ok ⟨c, q⟩ := by
          rw [childIter_of_matches hm hc, Iter.mk', BerView.parse, hq]; rfl
        cases hqv : q.valid with
        | false =>
          refine ⟨false, .alt j o, by simp [Ty.codec, choiceCodec, hv, h1, hci, hqv], hold, (fun h => nomatch h), ?_⟩
          rintro u ⟨x, hx⟩
          simp only [Ty.Reads] at hx
          obtain ⟨w', c', q', _, _, hm', hc', hq', hqv', _⟩ := hx
          have := matches_unique hm hm'
          subst this
          rw [hc] at hc'
          simp only [Exec.ok.injEq] at hc'
          subst hc'
          rw [BerView.parse, hq] at hq'
          simp only [Exec.ok.injEq] at hq'
          subst hq'
          rw [hqv] at hqv'; cases hqv'
        | true =>
          obtain ⟨r, i, o', b1, ⟨x1, e1, b2⟩, b3, b4⟩ := decodeAlt_safe hes hds hC hU hsq ⟨c, 0, hq⟩ hqv j o ⟨x, e, h0⟩
          refine ⟨r, .alt i o', by simp [Ty.codec, choiceCodec, hv, h1, hci, hqv, b1],
            ⟨_, _, i, o', x1, e1, rfl, rfl, b2, rfl⟩, ?_, ?_⟩
          · intro hr
            obtain ⟨y, f, id', a1, a2, a3, a4, a5, _, a6⟩ := b3 hr
            have hqb := hsq.bound hqv
            rw [(hq2 hqv).1] at hqb
            exact ⟨.alt i y, _, id.outer, ⟨i, o', y, f, rfl, rfl, a1, rfl⟩, a2,
              matches_min hid hs hp hm _ _ (by omega), hv, matches_outer hm, by simp [Ty.outer],
              fun u => by simpa only [Ty.Reads] using ⟨w, c, q, i, y, hm, hc, hq, hqv, rfl, a6 u⟩⟩
          · rintro u ⟨x, hx⟩
            simp only [Ty.Reads] at hx
            obtain ⟨w', c', q', i, y, hm', hc', hq', _, rfl, hR⟩ := hx
            have := matches_unique hm hm'
            subst this
            rw [hc] at hc'
            simp only [Exec.ok.injEq] at hc'
            subst hc'
            rw [BerView.parse, hq] at hq'
            simp only [Exec.ok.injEq] at hq'
            subst hq'
            exact b4 u ⟨i, y, hR⟩
      · obtain ⟨cl, _, hi⟩ := hs.identifier hv
        refine ⟨false, .alt j o, by simp [Ty.codec, choiceCodec, hv, h1, hi], hold, (fun h => nomatch h), ?_⟩
        rintro u ⟨x, hx⟩
        simp only [Ty.Reads] at hx
        obtain ⟨w, _, _, _, _, hm, _⟩ := hx
        exact (hno w hm).elim

/-! ## All types -/

theorem Fields.allUnamb_iff : (fs : Fields) → (fs.AllUnamb ↔ ∀ c ∈ fs.comps, c.ty.Unamb)
  | .nil => by simp [Fields.AllUnamb, Fields.comps]
  | .cons k l t rest => by simp [Fields.AllUnamb, Fields.comps, Fields.allUnamb_iff rest]

theorem Alts.allUnamb_iff : (as : Alts) → (as.AllUnamb ↔ ∀ a ∈ as.list, a.ty.Unamb)
  | .nil => by simp [Alts.AllUnamb, Alts.list]
  | .cons l t rest => by simp [Alts.AllUnamb, Alts.list, Alts.allUnamb_iff rest]

theorem Fields.allProper_iff : (fs : Fields) → (fs.AllProper ↔ ∀ c ∈ fs.comps, c.ty.Proper)
  | .nil => by simp [Fields.AllProper, Fields.comps]
  | .cons k l t rest => by simp [Fields.AllProper, Fields.comps, Fields.allProper_iff rest]

theorem Alts.allProper_iff : (as : Alts) → (as.AllProper ↔ ∀ a ∈ as.list, a.ty.Proper)
  | .nil => by simp [Alts.AllProper, Alts.list]
  | .cons l t rest => by simp [Alts.AllProper, Alts.list, Alts.allProper_iff rest]

theorem Alts.Unamb.distinct : (as : Alts) → as.Unamb → as.Distinct
  | .nil, _ => trivial
  | .cons l t rest, h => ⟨h.1, fun i hi hi' => h.2.1 i hi i hi' rfl, Alts.Unamb.distinct rest h.2.2⟩

mutual
theorem Ty.Unamb.proper : (t : Ty) → t.Unamb → t.Proper
  | .leaf _ _, _ => trivial
  | .seqOf _ t, h => Ty.Unamb.proper t h
  | .seq _ fs, h => ⟨h.1, Fields.AllUnamb.proper fs h.2⟩
  | .set _ _ fs, h => ⟨h.1, Fields.AllUnamb.proper fs h.2⟩
  | .choice _ as, h => ⟨Alts.Unamb.distinct as h.1, Alts.AllUnamb.proper as h.2⟩
theorem Fields.AllUnamb.proper : (fs : Fields) → fs.AllUnamb → fs.AllProper
  | .nil, _ => trivial
  | .cons _ _ t rest, h => ⟨Ty.Unamb.proper t h.1, Fields.AllUnamb.proper rest h.2⟩
theorem Alts.AllUnamb.proper : (as : Alts) → as.AllUnamb → as.AllProper
  | .nil, _ => trivial
  | .cons _ t rest, h => ⟨Ty.Unamb.proper t h.1, Alts.AllUnamb.proper rest h.2⟩
end

theorem compSeqUnamb_mem {cs : List Comp} (h : compSeqUnamb cs) : ∀ c ∈ cs, c.kind ≠ .mandatory →
    ∀ i, i ∈ c.labels ↔ i ∈ c.ty.outer := by
  induction cs with
  | nil => intro c hc; cases hc
  | cons d cs ih =>
    intro c hc hk
    rcases List.mem_cons.mp hc with rfl | hc
    · exact (h.1 hk).1
    · exact ih h.2 c hc hk

theorem Fields.seqGuarded_mem : (fs : Fields) → fs.SeqGuarded → ∀ c ∈ fs.comps, c.kind = .mandatory →
    ¬ c.ty.isUntaggedChoice
  | .nil, _, c, hc => by cases hc
  | .cons k l t rest, h, c, hc => by
    intro hk
    rcases List.mem_cons.mp hc with rfl | hc
    · have := h.2.1
      simp only at hk
      subst hk
      exact this
    · exact rest.seqGuarded_mem h.2.2 c hc hk

mutual
theorem Ty.decLaw : (t : Ty) → t.WF → t.Guarded → t.DecLaw
  | .leaf k id, h, _ => leaf_dec k id h
  | .seqOf id t, h, hg => seqOf_dec id h.1 t (t.encLaws h.2) (t.decLaw h.2 hg)
  | .seq id fs, h, hg => seq_dec id h.1 fs (fs.encLaws h.2) (fs.decLawSeq h.2 hg) (fs.seqGuarded_mem hg)
      (Ty.Unamb.proper _) (fun hu => fs.allUnamb_iff.mp hu.2)
      fun hu c hc => ⟨(fs.allProper_iff.mp hu.2) c hc, compSeqUnamb_mem (fs.seqUnamb_iff.mp hu.1) c hc⟩
  | .set id ext fs, h, hg => set_dec id h.1 ext fs (fs.encLaws h.2) (fs.decLawSet h.2 hg)
      (Ty.Unamb.proper _) (fun hu => fs.allUnamb_iff.mp hu.2)
      fun hu => ⟨fs.setUnamb_iff.mp hu.1, fs.allProper_iff.mp hu.2⟩
  | .choice (.untagged _) as, h, hg => choice_dec _ as (as.encLaws h.2.1) (as.decLaw h.2.1 hg) h
      (fun hu => ⟨hu.1, as.allUnamb_iff.mp hu.2⟩) fun hu => as.allProper_iff.mp hu.2
  | .choice (.tagged _) as, h, hg => choice_dec _ as (as.encLaws h.2.1) (as.decLaw h.2.1 hg) h
      (fun hu => ⟨hu.1, as.allUnamb_iff.mp hu.2⟩) fun hu => as.allProper_iff.mp hu.2
theorem Fields.decLawSeq : (fs : Fields) → fs.WF → fs.SeqGuarded → ∀ c ∈ fs.comps, c.ty.DecLaw
  | .nil, _, _ => by intro c hc; cases hc
  | .cons k l t rest, h, hg => by
    intro c hc
    rcases List.mem_cons.mp hc with rfl | hc
    · exact t.decLaw h.1 hg.1
    · exact rest.decLawSeq h.2.2 hg.2.2 c hc
theorem Fields.decLawSet : (fs : Fields) → fs.WF → fs.SetGuarded → ∀ c ∈ fs.comps, c.ty.DecLaw
  | .nil, _, _ => by intro c hc; cases hc
  | .cons k l t rest, h, hg => by
    intro c hc
    rcases List.mem_cons.mp hc with rfl | hc
    · exact t.decLaw h.1 hg.1
    · exact rest.decLawSet h.2.2 hg.2 c hc
theorem Alts.decLaw : (as : Alts) → as.WF → as.Guarded → ∀ a ∈ as.list, a.ty.DecLaw
  | .nil, _, _ => by intro c hc; cases hc
  | .cons l t rest, h, hg => by
    intro c hc
    rcases List.mem_cons.mp hc with rfl | hc
    · exact t.decLaw h.1 hg.1
    · exact rest.decLaw h.2 hg.2 c hc
end

end FastBer
