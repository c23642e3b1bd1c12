import Verif.Spec.Legal
import Verif.Proofs.EmitType
/-!
# The types generated for a legal schema are well-formed and unambiguous
-/
namespace FastBer.Ast
open Spec

/-- Occurrence of the core: what `Body` is about. -/
def CoreIn (tree : Tree) (mod : Module) (t : AType) : Prop := ∀ wm u, Core tree mod t wm u → Occurs tree wm u

theorem coreIn_of_occurs {tree : Tree} {mod : Module} {t : AType} (h : Occurs tree mod t) : CoreIn tree mod t := fun _ _ hc => occurs_core hc h

theorem CoreIn.prefixed {tree : Tree} {mod : Module} {c : Cls} {n : Nat} {k : TagMode} {t : AType} (h : CoreIn tree mod t) :
    CoreIn tree mod (.prefixed c n k t) := by
  intro wm u hc
  cases hc with
  | here h => cases h
  | prefixed hc => exact h _ _ hc

/-- Members of `autoTags`. -/
theorem autoTags_mem {mod : Module} {ts : List AType} {t : AType} (h : t ∈ autoTags mod ts) :
    t ∈ ts ∨ ∃ i u, u ∈ ts ∧ i < ts.length ∧ t = .prefixed .contextSpecific i .automatic u := by
  unfold autoTags at h
  split at h
  · obtain ⟨i, hi, rfl⟩ := List.mem_mapIdx.1 h
    exact .inr ⟨i, _, List.getElem_mem hi, hi, rfl⟩
  · exact .inl h

theorem slots_mem {mod : Module} {cs : List Comp} {s : Slot} (h : s ∈ slots mod cs) : s.type ∈ autoTags mod (cs.map Comp.type) := by
  unfold slots at h
  obtain ⟨i, hi⟩ := List.mem_iff_getElem?.1 h
  rw [List.getElem?_zipWith] at hi
  cases h1 : cs[i]? with
  | none => rw [h1] at hi; cases hi
  | some c =>
    cases h2 : (autoTags mod (cs.map Comp.type))[i]? with
    | none => rw [h1, h2] at hi; cases hi
    | some t =>
      rw [h1, h2] at hi
      cases hi
      exact List.mem_of_getElem? h2

/-- Tag numbers are bounded. -/
def Bounded (tree : Tree) (mod : Module) (t : AType) : Prop := ∀ ts, OwnTags tree mod t ts → ∀ tag ∈ ts, tag.2 < 2 ^ 63

theorem universal_bound {tree : Tree} (hL : Legal tree) {mod : Module} {k : Builtin} (hoc : Occurs tree mod (.leaf k)) {n : Nat}
    (h : universalNumber k = some n) : n < 2 ^ 63 := by
  have : n ≤ 36 := by
    cases k with
    | charString m => cases h; exact Nat.le_trans (hL.strings _ _ hoc) (by decide)
    | _ => first | (cases h; decide) | cases h
  omega

theorem bounded_of_occurs {tree : Tree} (hL : Legal tree) {mod : Module} {t : AType} (hoc : Occurs tree mod t) : Bounded tree mod t := by
  intro ts h
  induction h with
  | leaf h =>
    intro tag ht
    cases List.mem_singleton.1 ht
    exact universal_bound hL hoc h
  | sequence | seqOf | set | setOf =>
    intro tag ht
    cases List.mem_singleton.1 ht
    decide
  | choice => intro tag ht; cases ht
  | explicit_ _ _ ih =>
    intro tag ht
    rcases List.mem_cons.1 ht with h | h
    · subst h; exact hL.numbers _ _ _ _ _ hoc
    · exact ih (.prefixed hoc) tag h
  | implicit _ _ ih =>
    intro tag ht
    rcases List.mem_cons.1 ht with h | h
    · subst h; exact hL.numbers _ _ _ _ _ hoc
    · exact ih (.prefixed hoc) tag (List.mem_cons_of_mem _ h)
  | reference ht _ ih => exact ih (occurs_target ht)

theorem Bounded.prefixed {tree : Tree} {mod : Module} {c : Cls} {n : Nat} {k : TagMode} {t : AType} (h : Bounded tree mod t) (hn : n < 2 ^ 63) :
    Bounded tree mod (.prefixed c n k t) := by
  intro ts ho tag ht
  cases ho with
  | explicit_ _ ho =>
    rcases List.mem_cons.1 ht with h' | h'
    · subst h'; exact hn
    · exact h _ ho tag h'
  | implicit _ ho =>
    rcases List.mem_cons.1 ht with h' | h'
    · subst h'; exact hn
    · exact h _ ho tag (List.mem_cons_of_mem _ h')

/-- What the recursion knows about a type: where its core is written, and that its tags are bounded. -/
structure Known (tree : Tree) (mod : Module) (t : AType) : Prop where
  core : CoreIn tree mod t
  bound : Bounded tree mod t

theorem known_of_occurs {tree : Tree} (hL : Legal tree) {mod : Module} {t : AType} (hoc : Occurs tree mod t) : Known tree mod t :=
  ⟨coreIn_of_occurs hoc, bounded_of_occurs hL hoc⟩

theorem known_auto {tree : Tree} (hL : Legal tree) {mod : Module} {ts : List AType} (h : ∀ t ∈ ts, Occurs tree mod t) (hl : ts.length < 2 ^ 63) {t : AType}
    (ht : t ∈ autoTags mod ts) : Known tree mod t := by
  rcases autoTags_mem ht with h1 | ⟨i, u, h1, h2, rfl⟩
  · exact known_of_occurs hL (h _ h1)
  · have := known_of_occurs hL (h _ h1)
    exact ⟨this.core.prefixed, this.bound.prefixed (Nat.lt_trans h2 hl)⟩

theorem known_sequence {tree : Tree} (hL : Legal tree) {mod : Module} {cs : List Comp} {e : Bool} (h : Occurs tree mod (.sequence cs e)) {s : Slot}
    (hs : s ∈ slots mod cs) : Known tree mod s.type :=
  known_auto hL (fun t ht => by obtain ⟨c, hc, rfl⟩ := List.mem_map.1 ht; exact .sequence h hc)
    (by rw [List.length_map]; exact hL.sequenceSize _ _ _ h) (slots_mem hs)

theorem known_set {tree : Tree} (hL : Legal tree) {mod : Module} {cs : List Comp} {e : Bool} (h : Occurs tree mod (.set cs e)) {s : Slot}
    (hs : s ∈ slots mod cs) : Known tree mod s.type :=
  known_auto hL (fun t ht => by obtain ⟨c, hc, rfl⟩ := List.mem_map.1 ht; exact .set h hc)
    (by rw [List.length_map]; exact hL.setSize _ _ _ h) (slots_mem hs)

theorem known_choice {tree : Tree} (hL : Legal tree) {mod : Module} {as : List Named} {s : Storage} (h : Occurs tree mod (.choice as s)) {t : AType}
    (ht : t ∈ choices mod as) : Known tree mod t :=
  known_auto hL (fun t ht => by obtain ⟨c, hc, rfl⟩ := List.mem_map.1 ht; exact .choice h hc)
    (by rw [List.length_map]; exact hL.choiceSize _ _ _ h) ht

/-! ## First tags -/

theorem ownTags_outermost {tree : Tree} {mod : Module} {t : AType} {tag : Spec.Tag} {ts : List Spec.Tag} (h : OwnTags tree mod t (tag :: ts)) :
    Outermost tree mod t tag := by
  generalize hl : tag :: ts = l at h
  induction h generalizing tag ts with
  | leaf h => cases hl; exact .leaf h
  | sequence => cases hl; exact .sequence ..
  | seqOf => cases hl; exact .seqOf ..
  | set => cases hl; exact .set ..
  | setOf => cases hl; exact .setOf ..
  | choice => cases hl
  | explicit_ => cases hl; exact .prefixed ..
  | implicit => cases hl; exact .prefixed ..
  | reference ht _ ih => exact .reference ht (ih hl)

theorem outermost_nil {tree : Tree} {mod wm : Module} {t u : AType} {tag : Spec.Tag} (ho : OwnTags tree mod t []) (hc : Core tree mod t wm u)
    (h : Outermost tree wm u tag) : Outermost tree mod t tag := by
  generalize hl : ([] : List Spec.Tag) = l at ho
  induction ho with
  | leaf | sequence | seqOf | set | setOf | explicit_ | implicit => cases hl
  | choice =>
    cases hc
    exact h
  | reference ht _ ih =>
    cases hc with
    | here hx => cases hx
    | reference ht' hc => rw [ht] at ht'; cases ht'; exact .reference ht (ih hc hl)

theorem outermost_choices {tree : Tree} {mod : Module} {as : List Named} {s : Storage} {t : AType} {tag : Spec.Tag} (ht : t ∈ choices mod as)
    (h : Outermost tree mod t tag) : Outermost tree mod (.choice as s) tag := by
  unfold choices autoTags at ht
  split at ht
  · rename_i ha
    obtain ⟨i, hi, rfl⟩ := List.mem_mapIdx.1 ht
    cases h
    refine .automaticChoice ⟨ha.1, ?_⟩ (by simpa using hi)
    intro a hm c n k u he
    have := List.all_eq_true.1 ha.2 a.type (List.mem_map.2 ⟨a, hm, rfl⟩)
    rw [he] at this
    cases this
  · rename_i ha
    obtain ⟨a, hm, rfl⟩ := List.mem_map.1 ht
    refine .choice (fun hau => ha ⟨hau.1, ?_⟩) hm h
    rw [List.all_map, List.all_eq_true]
    intro b hb
    cases hbt : b.type with
    | prefixed c n k u => exact absurd hbt (hau.2 b hb c n k u)
    | _ => simp [Function.comp, hbt, hasTag]

/-- What stands for a type begins with tags the type can begin with. -/
def HolesBegin (tree : Tree) (H : Holes) : Prop := ∀ T mod t, H T mod t → ∀ id ∈ T.outer, ∃ tag, Outermost tree mod t tag ∧ id = idOf tag

mutual
/-- A generated type begins with tags its ASN.1 type can begin with. -/
theorem outer_outermost {H : Holes} {lib : Lib} {tree : Tree} (hH : HolesBegin tree H) : ∀ (T : Ty) (mod : Module) (t : AType), T.Is H lib tree mod t → ∀ id ∈ T.outer,
    ∃ tag, Outermost tree mod t tag ∧ id = idOf tag
  | .choice (.untagged ids) as, mod, t, h, id, hid => by
    obtain ⟨⟨wm, as', s, hc, hb, _⟩, ts, ho, he⟩ := h
    have hts : ts = [] := by simpa [Ty.own] using he.symm
    subst hts
    obtain ⟨u, hu, tag, h1, h2⟩ := alts_outermost hH as wm _ hb id hid
    exact ⟨tag, outermost_nil ho hc (outermost_choices hu h1), h2⟩
  | .choice (.tagged i) as, mod, t, ⟨_, ts, ho, he⟩, id, hid => own_outermost ho he (by cases i <;> simp [Ty.own, Ident.list]) id hid
  | .leaf _ i, mod, t, ⟨_, ts, ho, he⟩, id, hid => own_outermost ho he (by cases i <;> simp [Ty.own, Ident.list]) id hid
  | .seqOf i _, mod, t, ⟨_, ts, ho, he⟩, id, hid => own_outermost ho he (by cases i <;> simp [Ty.own, Ident.list]) id hid
  | .seq i _, mod, t, ⟨_, ts, ho, he⟩, id, hid => own_outermost ho he (by cases i <;> simp [Ty.own, Ident.list]) id hid
  | .set i _ _, mod, t, ⟨_, ts, ho, he⟩, id, hid => own_outermost ho he (by cases i <;> simp [Ty.own, Ident.list]) id hid
theorem alts_outermost {H : Holes} {lib : Lib} {tree : Tree} (hH : HolesBegin tree H) : ∀ (as : Alts) (mod : Module) (ts : List AType), as.Body H lib tree mod ts → ∀ id ∈ as.outer,
    ∃ t ∈ ts, ∃ tag, Outermost tree mod t tag ∧ id = idOf tag
  | .nil, mod, ts, h, id, hid => by cases hid
  | .cons ls T rest, mod, ts, h, id, hid => by
    obtain ⟨t, ts', rfl, _, h12, h3⟩ := h
    rw [Alts.outer] at hid
    rcases List.mem_append.1 hid with hid | hid
    · refine ⟨t, List.mem_cons_self, ?_⟩
      rcases h12 with h1 | h1
      · exact outer_outermost hH T mod t h1 id hid
      · exact hH _ _ _ h1 id hid
    · obtain ⟨u, hu, h4⟩ := alts_outermost hH rest mod ts' h3 id hid
      exact ⟨u, List.mem_cons_of_mem _ hu, h4⟩
theorem own_outermost {tree : Tree} {T : Ty} {mod : Module} {t : AType} {ts : List Spec.Tag} (ho : OwnTags tree mod t ts) (he : T.own = ts.map idOf)
    (hne : T.own ≠ []) : ∀ id ∈ T.outer, ∃ tag, Outermost tree mod t tag ∧ id = idOf tag := by
  intro id hid
  cases ts with
  | nil => exact absurd he hne
  | cons tag ts =>
    rw [Ty.outer_own he] at hid
    exact ⟨tag, ownTags_outermost ho, List.mem_singleton.1 hid⟩
end

theorem sub_outermost {H : Holes} {lib : Lib} {tree : Tree} (hH : HolesBegin tree H) {T : Ty} {mod : Module} {t : AType}
    (h : (T.Body H lib tree mod t ∧ T.Head tree mod t) ∨ H T mod t) : ∀ id ∈ T.outer, ∃ tag, Outermost tree mod t tag ∧ id = idOf tag := by
  rcases h with h | h
  · exact outer_outermost hH T mod t h
  · exact hH _ _ _ h

theorem idOf_inj {a b : Spec.Tag} (h : idOf a = idOf b) : a = b := by
  obtain ⟨c, n⟩ := a
  obtain ⟨c', n'⟩ := b
  simp only [idOf, Id.mk.injEq] at h
  have h2 : n = n' := by exact_mod_cast h.2
  subst h2
  have h1 : c = c' := by cases c <;> cases c' <;> first | rfl | (exact absurd h.1 (by decide))
  rw [h1]

/-! ## Well-formed -/

theorem identOk_of {tree : Tree} {mod : Module} {t : AType} (hb : Bounded tree mod t) {ts : List Spec.Tag} (ho : OwnTags tree mod t ts) {id : Ident}
    (he : id.list = ts.map idOf) : FastBer.Spec.identOk id := by
  have key : ∀ i ∈ id.list, FastBer.Spec.idOk i := by
    intro i hi
    rw [he] at hi
    obtain ⟨tag, ht, rfl⟩ := List.mem_map.1 hi
    have := hb ts ho tag ht
    simp only [FastBer.Spec.idOk, idOf]
    omega
  cases id with
  | single i => exact key i (by simp [Ident.list])
  | double o i => exact ⟨key o (by simp [Ident.list]), key i (by simp [Ident.list])⟩

/-- Objects made from default values hold a value. -/
def _root_.FastBer.Ast.Lib.Defaults (lib : Lib) : Prop := ∀ T v d, lib.default T v = some d → T.Holds d

theorem choices_ne {mod : Module} {as : List Named} (h : as ≠ []) : choices mod as ≠ [] := by
  intro he
  have := congrArg List.length he
  rw [choices, autoTags_length] at this
  cases as with
  | nil => exact h rfl
  | cons a as => simp at this

theorem own_ok {tree : Tree} {mod : Module} {t : AType} (hb : Bounded tree mod t) {T : Ty} (h : T.Head tree mod t) :
    ∀ i ∈ T.own, FastBer.Spec.idOk i := by
  obtain ⟨ts, ho, he⟩ := h
  intro i hi
  rw [he] at hi
  obtain ⟨tag, ht, rfl⟩ := List.mem_map.1 hi
  have := hb ts ho tag ht
  simp only [FastBer.Spec.idOk, idOf]
  omega

theorem ident_ok {id : Ident} (h : ∀ i ∈ id.list, FastBer.Spec.idOk i) : FastBer.Spec.identOk id := by
  cases id with
  | single i => exact h i (by simp [Ident.list])
  | double o i => exact ⟨h o (by simp [Ident.list]), h i (by simp [Ident.list])⟩

mutual
theorem body_wf {H : Holes} {lib : Lib} {tree : Tree} (hH : ∀ T mod t, H T mod t → T.WF) (hS : Supported tree) (hL : Legal tree) (hD : lib.Defaults) :
    ∀ (T : Ty) (mod : Module) (t : AType), T.Body H lib tree mod t → (∀ i ∈ T.own, FastBer.Spec.idOk i) → CoreIn tree mod t → T.WF
  | .leaf l id, mod, t, _, ho, hk => ident_ok ho
  | .seqOf id T, mod, t, ⟨wm, n, u, s, hc, hb⟩, ho, hk => by
    refine ⟨ident_ok ho, ?_⟩
    rcases hb with ⟨hb, hh⟩ | hb
    · have hk' : Known tree wm u := by
        rcases hc with hc | hc
        · exact known_of_occurs hL (.seqOf (hk _ _ hc))
        · exact known_of_occurs hL (.setOf (hk _ _ hc))
      exact body_wf hH hS hL hD T wm u hb (own_ok hk'.bound hh) hk'.core
    · exact hH _ _ _ hb
  | .seq id fs, mod, t, ⟨wm, cs, e, hc, hb⟩, ho, hk =>
    ⟨ident_ok ho, fields_wf hH hS hL hD fs _ wm _ hb (fun s hs => known_sequence hL (hk _ _ hc) hs)⟩
  | .set id ext fs, mod, t, ⟨wm, cs, hc, hb⟩, ho, hk =>
    ⟨ident_ok ho, fields_wf hH hS hL hD fs _ wm _ hb (fun s hs => known_set hL (hk _ _ hc) hs)⟩
  | .choice (.tagged id) as, mod, t, ⟨wm, as', s, hc, hb, _⟩, ho, hk => by
    have hoc := hk _ _ hc
    refine ⟨ident_ok ho, alts_wf hH hS hL hD as wm _ hb (fun u hu => known_choice hL hoc hu), ?_⟩
    rintro rfl
    cases hS.tags _ _ hoc with
    | choice hb' =>
      cases hb' with
      | choice hne _ => exact choices_ne hne hb
  | .choice (.untagged ids) as, mod, t, ⟨wm, as', s, hc, hb, hids⟩, ho, hk => by
    have hoc := hk _ _ hc
    refine ⟨hids, alts_wf hH hS hL hD as wm _ hb (fun u hu => known_choice hL hoc hu), ?_⟩
    rintro rfl
    cases hS.tags _ _ hoc with
    | choice hb' =>
      cases hb' with
      | choice hne _ => exact choices_ne hne hb
theorem fields_wf {H : Holes} {lib : Lib} {tree : Tree} (hH : ∀ T mod t, H T mod t → T.WF) (hS : Supported tree) (hL : Legal tree) (hD : lib.Defaults) :
    ∀ (fs : Fields) (all : Bool) (mod : Module) (ss : List Slot),
    fs.Body H lib tree all mod ss → (∀ s ∈ ss, Known tree mod s.type) → fs.WF
  | .nil, _, _, _, _, _ => trivial
  | .cons k ls T rest, all, mod, ss, h, hk => by
    obtain ⟨s, ss', rfl, hki, _, h12, h3⟩ := h
    refine ⟨?_, ?_, fields_wf hH hS hL hD rest all mod ss' h3 (fun s hs => hk s (List.mem_cons_of_mem _ hs))⟩
    · have hk' := hk s List.mem_cons_self
      rcases h12 with ⟨h1, h2⟩ | h1
      · exact body_wf hH hS hL hD T mod s.type h1 (own_ok hk'.bound h2) hk'.core
      · exact hH _ _ _ h1
    · cases k with
      | mandatory => trivial
      | optional => trivial
      | default d => obtain ⟨_, v, hv⟩ := hki; exact hD _ _ _ hv
theorem alts_wf {H : Holes} {lib : Lib} {tree : Tree} (hH : ∀ T mod t, H T mod t → T.WF) (hS : Supported tree) (hL : Legal tree) (hD : lib.Defaults) :
    ∀ (as : Alts) (mod : Module) (ts : List AType), as.Body H lib tree mod ts → (∀ t ∈ ts, Known tree mod t) → as.WF
  | .nil, _, _, _, _ => trivial
  | .cons ls T rest, mod, ts, h, hk => by
    obtain ⟨t, ts', rfl, _, h12, h3⟩ := h
    refine ⟨?_, alts_wf hH hS hL hD rest mod ts' h3 (fun s hs => hk s (List.mem_cons_of_mem _ hs))⟩
    have hk' := hk t List.mem_cons_self
    rcases h12 with ⟨h1, h2⟩ | h1
    · exact body_wf hH hS hL hD T mod t h1 (own_ok hk'.bound h2) hk'.core
    · exact hH _ _ _ h1
end

theorem is_wf {lib : Lib} {tree : Tree} (hS : Supported tree) (hL : Legal tree) (hD : lib.Defaults) (T : Ty) (mod : Module) (t : AType)
    (h : T.Is noHoles lib tree mod t) (hk : Known tree mod t) : T.WF :=
  body_wf (fun _ _ _ h => h.elim) hS hL hD T mod t h.1 (own_ok hk.bound h.2) hk.core

/-! ## Unambiguous -/

theorem firsts_outermost {H : Holes} {lib : Lib} {tree : Tree} (hH : HolesBegin tree H) {all : Bool} {mod : Module} : ∀ (fs : Fields) (ss : List Slot), fs.Body H lib tree all mod ss →
    ∀ id ∈ fs.firsts, ∃ (j : Nat) (s : Slot) (tag : Spec.Tag), ss[j]? = some s ∧ (∀ (k : Nat) (c : Slot), k < j → ss[k]? = some c → c.mayBeAbsent = true) ∧ Outermost tree mod s.type tag ∧ id = idOf tag
  | .nil, ss, h, id, hid => by cases hid
  | .cons k ls T rest, ss, h, id, hid => by
    obtain ⟨s, ss', rfl, hk, _, h12, h3⟩ := h
    have hnow : id ∈ T.outer → ∃ (j : Nat) (s' : Slot) (tag : Spec.Tag), (s :: ss')[j]? = some s' ∧ (∀ (k : Nat) (c : Slot), k < j → (s :: ss')[k]? = some c → c.mayBeAbsent = true) ∧
        Outermost tree mod s'.type tag ∧ id = idOf tag := by
      intro hid
      obtain ⟨tag, h4, h5⟩ := sub_outermost hH h12 id hid
      exact ⟨0, s, tag, rfl, fun k c hk => by omega, h4, h5⟩
    have hlater : s.mayBeAbsent = true → id ∈ rest.firsts → ∃ (j : Nat) (s' : Slot) (tag : Spec.Tag), (s :: ss')[j]? = some s' ∧
        (∀ (k : Nat) (c : Slot), k < j → (s :: ss')[k]? = some c → c.mayBeAbsent = true) ∧ Outermost tree mod s'.type tag ∧ id = idOf tag := by
      intro hs hid
      obtain ⟨j, s', tag, h4, h5, h6, h7⟩ := firsts_outermost hH rest ss' h3 id hid
      refine ⟨j + 1, s', tag, h4, fun k c hkj hc => ?_, h6, h7⟩
      cases k with
      | zero => cases hc; exact hs
      | succ k => exact h5 k c (by omega) hc
    cases k with
    | mandatory => exact hnow hid
    | optional =>
      rw [Fields.firsts] at hid
      · rcases List.mem_append.1 hid with h | h
        · exact hnow h
        · exact hlater hk h
      · intro h; cases h
    | default d =>
      rw [Fields.firsts] at hid
      · rcases List.mem_append.1 hid with h | h
        · exact hnow h
        · exact hlater hk.1 h
      · intro h; cases h

theorem _root_.FastBer.Ast.Spec.SlotsDistinct.tail {tree : Tree} {mod : Module} {s : Slot} {ss : List Slot} (h : SlotsDistinct tree mod (s :: ss)) :
    SlotsDistinct tree mod ss := by
  intro i j a b hij ha hb hk
  refine h (i + 1) (j + 1) a b (by omega) ha hb fun k c h1 h2 hc => ?_
  cases k with
  | zero => omega
  | succ k => exact hk k c (by omega) (by omega) hc

theorem _root_.FastBer.Ast.Spec.SetSlotsDistinct.tail {tree : Tree} {mod : Module} {s : Slot} {ss : List Slot} (h : SetSlotsDistinct tree mod (s :: ss)) :
    SetSlotsDistinct tree mod ss := fun i j a b hij ha hb => h (i + 1) (j + 1) a b (by omega) ha hb

theorem _root_.FastBer.Ast.Spec.NumbersDistinct.tail {tree : Tree} {mod : Module} {t : AType} {ts : List AType} (h : NumbersDistinct tree mod (t :: ts)) :
    NumbersDistinct tree mod ts := fun i j a b x y hij ha hb => h (i + 1) (j + 1) a b x y (by omega) ha hb

theorem seqUnamb_of {H : Holes} {lib : Lib} {tree : Tree} (hH : HolesBegin tree H) {mod : Module} : ∀ (fs : Fields) (ss : List Slot), fs.Body H lib tree false mod ss →
    SlotsDistinct tree mod ss → fs.SeqUnamb
  | .nil, _, _, _ => trivial
  | .cons k ls T rest, ss, h, hd => by
    obtain ⟨s, ss', rfl, hk, hl, h12, h3⟩ := h
    have htail := seqUnamb_of hH rest ss' h3 hd.tail
    have hopt : s.mayBeAbsent = true → (∀ i, i ∈ ls ↔ i ∈ T.outer) ∧ (∀ i ∈ ls, i ∉ rest.firsts) ∧ rest.SeqUnamb := by
      intro hs
      have hls := hl (.inr hs)
      subst hls
      refine ⟨fun _ => Iff.rfl, fun i hi hf => ?_, htail⟩
      obtain ⟨tag, h4, h5⟩ := sub_outermost hH h12 i hi
      obtain ⟨j, s', tag', h6, h7, h8, h9⟩ := firsts_outermost hH rest ss' h3 i hf
      have : tag' = tag := idOf_inj (h9.symm.trans h5)
      subst this
      refine hd 0 (j + 1) s s' (by omega) rfl h6 (fun k c _ hkj hc => ?_) ⟨tag', h4, h8⟩
      cases k with
      | zero => cases hc; exact hs
      | succ k => exact h7 k c (by omega) hc
    cases k with
    | mandatory => exact htail
    | optional => exact hopt hk
    | default d => exact hopt hk.1

theorem labels_outermost {H : Holes} {lib : Lib} {tree : Tree} (hH : HolesBegin tree H) {mod : Module} : ∀ (fs : Fields) (ss : List Slot), fs.Body H lib tree true mod ss →
    ∀ id ∈ fs.labels, ∃ (j : Nat) (s : Slot) (tag : Spec.Tag), ss[j]? = some s ∧ Outermost tree mod s.type tag ∧ id = idOf tag
  | .nil, ss, h, id, hid => by cases hid
  | .cons k ls T rest, ss, h, id, hid => by
    obtain ⟨s, ss', rfl, hk, hl, h12, h3⟩ := h
    rw [Fields.labels] at hid
    rcases List.mem_append.1 hid with h | h
    · rw [hl (.inl rfl)] at h
      obtain ⟨tag, h4, h5⟩ := sub_outermost hH h12 id h
      exact ⟨0, s, tag, rfl, h4, h5⟩
    · obtain ⟨j, s', tag, h4, h5, h6⟩ := labels_outermost hH rest ss' h3 id h
      exact ⟨j + 1, s', tag, h4, h5, h6⟩

theorem setUnamb_of {H : Holes} {lib : Lib} {tree : Tree} (hH : HolesBegin tree H) {mod : Module} : ∀ (fs : Fields) (ss : List Slot), fs.Body H lib tree true mod ss →
    SetSlotsDistinct tree mod ss → fs.SetUnamb
  | .nil, _, _, _ => trivial
  | .cons k ls T rest, ss, h, hd => by
    obtain ⟨s, ss', rfl, hk, hl, h12, h3⟩ := h
    have hls := hl (.inl rfl)
    subst hls
    refine ⟨fun _ => Iff.rfl, fun i hi hf => ?_, setUnamb_of hH rest ss' h3 hd.tail⟩
    obtain ⟨tag, h4, h5⟩ := sub_outermost hH h12 i hi
    obtain ⟨j, s', tag', h6, h8, h9⟩ := labels_outermost hH rest ss' h3 i hf
    have : tag' = tag := idOf_inj (h9.symm.trans h5)
    subst this
    exact hd 0 (j + 1) s s' (by omega) rfl h6 ⟨tag', h4, h8⟩

theorem altLabels_outermost {H : Holes} {lib : Lib} {tree : Tree} (hH : HolesBegin tree H) {mod : Module} : ∀ (as : Alts) (ts : List AType), as.Body H lib tree mod ts →
    ∀ id ∈ as.labels, ∃ (j : Nat) (t : AType) (tag : Spec.Tag), ts[j]? = some t ∧ Outermost tree mod t tag ∧ id = idOf tag
  | .nil, ts, h, id, hid => by cases hid
  | .cons ls T rest, ts, h, id, hid => by
    obtain ⟨t, ts', rfl, hl, h12, h3⟩ := h
    rw [Alts.labels] at hid
    rcases List.mem_append.1 hid with h | h
    · rw [hl] at h
      obtain ⟨tag, h4, h5⟩ := sub_outermost hH h12 id h
      exact ⟨0, t, tag, rfl, h4, h5⟩
    · obtain ⟨j, s', tag, h4, h5, h6⟩ := altLabels_outermost hH rest ts' h3 id h
      exact ⟨j + 1, s', tag, h4, h5, h6⟩

theorem altsUnamb_of {H : Holes} {lib : Lib} {tree : Tree} (hH : HolesBegin tree H) {mod : Module} : ∀ (as : Alts) (ts : List AType), as.Body H lib tree mod ts →
    NumbersDistinct tree mod ts → as.Unamb
  | .nil, _, _, _ => trivial
  | .cons ls T rest, ts, h, hd => by
    obtain ⟨t, ts', rfl, hl, h12, h3⟩ := h
    subst hl
    refine ⟨fun _ => Iff.rfl, fun i hi j hj => ?_, altsUnamb_of hH rest ts' h3 hd.tail⟩
    obtain ⟨tag, h4, h5⟩ := sub_outermost hH h12 i hi
    obtain ⟨n, u, tag', h6, h8, h9⟩ := altLabels_outermost hH rest ts' h3 j hj
    have := hd 0 (n + 1) t u tag tag' (by omega) rfl h6 h4 h8
    rw [h5, h9]
    simp only [idOf, ne_eq]
    omega

mutual
theorem body_unamb {H : Holes} {lib : Lib} {tree : Tree} (hH : HolesBegin tree H) (hU : ∀ T mod t, H T mod t → T.Unamb) (hL : Legal tree) : ∀ (T : Ty) (mod : Module) (t : AType), T.Body H lib tree mod t →
    CoreIn tree mod t → T.Unamb
  | .leaf l id, mod, t, _, _ => trivial
  | .seqOf id T, mod, t, ⟨wm, n, u, s, hc, hb⟩, hk => by
    rcases hb with ⟨hb, _⟩ | hb
    case inr => exact hU T wm u hb
    refine body_unamb hH hU hL T wm u hb ?_
    rcases hc with hc | hc
    · exact coreIn_of_occurs (.seqOf (hk _ _ hc))
    · exact coreIn_of_occurs (.setOf (hk _ _ hc))
  | .seq id fs, mod, t, ⟨wm, cs, e, hc, hb⟩, hk =>
    ⟨seqUnamb_of hH fs _ hb (hL.sequences _ _ _ (hk _ _ hc)), fields_unamb hH hU hL fs _ wm _ hb fun s hs => (known_sequence hL (hk _ _ hc) hs).core⟩
  | .set id ext fs, mod, t, ⟨wm, cs, hc, hb⟩, hk =>
    ⟨setUnamb_of hH fs _ hb (hL.sets _ _ _ (hk _ _ hc)), fields_unamb hH hU hL fs _ wm _ hb fun s hs => (known_set hL (hk _ _ hc) hs).core⟩
  | .choice cid as, mod, t, ⟨wm, as', s, hc, hb, _⟩, hk =>
    ⟨altsUnamb_of hH as _ hb (hL.choices _ _ _ (hk _ _ hc)), alts_unamb hH hU hL as wm _ hb fun u hu => (known_choice hL (hk _ _ hc) hu).core⟩
theorem fields_unamb {H : Holes} {lib : Lib} {tree : Tree} (hH : HolesBegin tree H) (hU : ∀ T mod t, H T mod t → T.Unamb) (hL : Legal tree) : ∀ (fs : Fields) (all : Bool) (mod : Module) (ss : List Slot),
    fs.Body H lib tree all mod ss → (∀ s ∈ ss, CoreIn tree mod s.type) → fs.AllUnamb
  | .nil, _, _, _, _, _ => trivial
  | .cons k ls T rest, all, mod, ss, h, hk => by
    obtain ⟨s, ss', rfl, _, _, h12, h3⟩ := h
    refine ⟨?_, fields_unamb hH hU hL rest all mod ss' h3 fun s hs => hk s (List.mem_cons_of_mem _ hs)⟩
    rcases h12 with ⟨h1, _⟩ | h1
    · exact body_unamb hH hU hL T mod s.type h1 (hk s List.mem_cons_self)
    · exact hU _ _ _ h1
theorem alts_unamb {H : Holes} {lib : Lib} {tree : Tree} (hH : HolesBegin tree H) (hU : ∀ T mod t, H T mod t → T.Unamb) (hL : Legal tree) : ∀ (as : Alts) (mod : Module) (ts : List AType),
    as.Body H lib tree mod ts → (∀ t ∈ ts, CoreIn tree mod t) → as.AllUnamb
  | .nil, _, _, _, _ => trivial
  | .cons ls T rest, mod, ts, h, hk => by
    obtain ⟨t, ts', rfl, _, h12, h3⟩ := h
    refine ⟨?_, alts_unamb hH hU hL rest mod ts' h3 fun s hs => hk s (List.mem_cons_of_mem _ hs)⟩
    rcases h12 with ⟨h1, _⟩ | h1
    · exact body_unamb hH hU hL T mod t h1 (hk t List.mem_cons_self)
    · exact hU _ _ _ h1
end

theorem is_unamb {lib : Lib} {tree : Tree} (hL : Legal tree) (T : Ty) (mod : Module) (t : AType) (h : T.Body noHoles lib tree mod t)
    (hk : CoreIn tree mod t) : T.Unamb := body_unamb (fun _ _ _ h => h.elim) (fun _ _ _ h => h.elim) hL T mod t h hk

/-! ## Guarded -/

theorem bare_own {T : Ty} (h : T.isUntaggedChoice) : T.own = [] := by
  cases T with
  | choice cid as =>
    cases cid with
    | untagged ids => rfl
    | tagged id => cases h
  | _ => cases h

mutual
theorem body_guarded {H : Holes} {lib : Lib} {tree : Tree} (hH : ∀ T mod t, H T mod t → T.isUntaggedChoice → OwnTags tree mod t []) (hU : ∀ T mod t, H T mod t → T.Guarded) (hL : Legal tree) (hG : NoBareChoice tree) : ∀ (T : Ty) (mod : Module) (t : AType), T.Body H lib tree mod t →
    CoreIn tree mod t → T.Guarded
  | .leaf l id, mod, t, _, _ => trivial
  | .seqOf id T, mod, t, ⟨wm, n, u, s, hc, hb⟩, hk => by
    rcases hb with ⟨hb, _⟩ | hb
    case inr => exact hU T wm u hb
    refine body_guarded hH hU hL hG T wm u hb ?_
    rcases hc with hc | hc
    · exact coreIn_of_occurs (.seqOf (hk _ _ hc))
    · exact coreIn_of_occurs (.setOf (hk _ _ hc))
  | .seq id fs, mod, t, ⟨wm, cs, e, hc, hb⟩, hk =>
    seq_guarded hH hU hL hG fs wm _ hb (fun s hs => (known_sequence hL (hk _ _ hc) hs).core) fun s hs hm => hG _ _ _ _ (hk _ _ hc) hs hm
  | .set id ext fs, mod, t, ⟨wm, cs, hc, hb⟩, hk =>
    set_guarded hH hU hL hG fs wm _ hb fun s hs => (known_set hL (hk _ _ hc) hs).core
  | .choice cid as, mod, t, ⟨wm, as', s, hc, hb, _⟩, hk =>
    alts_guarded hH hU hL hG as wm _ hb fun u hu => (known_choice hL (hk _ _ hc) hu).core
theorem seq_guarded {H : Holes} {lib : Lib} {tree : Tree} (hH : ∀ T mod t, H T mod t → T.isUntaggedChoice → OwnTags tree mod t []) (hU : ∀ T mod t, H T mod t → T.Guarded) (hL : Legal tree) (hG : NoBareChoice tree) : ∀ (fs : Fields) (mod : Module) (ss : List Slot),
    fs.Body H lib tree false mod ss → (∀ s ∈ ss, CoreIn tree mod s.type) → (∀ s ∈ ss, s.mayBeAbsent = false → ¬ OwnTags tree mod s.type []) → fs.SeqGuarded
  | .nil, _, _, _, _, _ => trivial
  | .cons k ls T rest, mod, ss, h, hk, hg => by
    obtain ⟨s, ss', rfl, hkind, _, h12, h3⟩ := h
    have hg1 : T.Guarded := by
      rcases h12 with ⟨h1, _⟩ | h1
      · exact body_guarded hH hU hL hG T mod s.type h1 (hk s List.mem_cons_self)
      · exact hU _ _ _ h1
    refine ⟨hg1, ?_, seq_guarded hH hU hL hG rest mod ss' h3
      (fun s hs => hk s (List.mem_cons_of_mem _ hs)) (fun s hs => hg s (List.mem_cons_of_mem _ hs))⟩
    cases k with
    | mandatory =>
      intro hb
      rcases h12 with ⟨_, h2⟩ | h1
      case inr => exact hg s List.mem_cons_self hkind (hH _ _ _ h1 hb)
      obtain ⟨ts, ho, he⟩ := h2
      rw [bare_own hb] at he
      have : ts = [] := by simpa using he.symm
      subst this
      exact hg s List.mem_cons_self hkind ho
    | optional => trivial
    | default d => trivial
theorem set_guarded {H : Holes} {lib : Lib} {tree : Tree} (hH : ∀ T mod t, H T mod t → T.isUntaggedChoice → OwnTags tree mod t []) (hU : ∀ T mod t, H T mod t → T.Guarded) (hL : Legal tree) (hG : NoBareChoice tree) : ∀ (fs : Fields) (mod : Module) (ss : List Slot),
    fs.Body H lib tree true mod ss → (∀ s ∈ ss, CoreIn tree mod s.type) → fs.SetGuarded
  | .nil, _, _, _, _ => trivial
  | .cons k ls T rest, mod, ss, h, hk => by
    obtain ⟨s, ss', rfl, hkind, _, h12, h3⟩ := h
    have hg1 : T.Guarded := by
      rcases h12 with ⟨h1, _⟩ | h1
      · exact body_guarded hH hU hL hG T mod s.type h1 (hk s List.mem_cons_self)
      · exact hU _ _ _ h1
    exact ⟨hg1, set_guarded hH hU hL hG rest mod ss' h3
      (fun s hs => hk s (List.mem_cons_of_mem _ hs))⟩
theorem alts_guarded {H : Holes} {lib : Lib} {tree : Tree} (hH : ∀ T mod t, H T mod t → T.isUntaggedChoice → OwnTags tree mod t []) (hU : ∀ T mod t, H T mod t → T.Guarded) (hL : Legal tree) (hG : NoBareChoice tree) : ∀ (as : Alts) (mod : Module) (ts : List AType),
    as.Body H lib tree mod ts → (∀ t ∈ ts, CoreIn tree mod t) → as.Guarded
  | .nil, _, _, _, _ => trivial
  | .cons ls T rest, mod, ts, h, hk => by
    obtain ⟨t, ts', rfl, _, h12, h3⟩ := h
    have hg1 : T.Guarded := by
      rcases h12 with ⟨h1, _⟩ | h1
      · exact body_guarded hH hU hL hG T mod t h1 (hk t List.mem_cons_self)
      · exact hU _ _ _ h1
    exact ⟨hg1, alts_guarded hH hU hL hG rest mod ts' h3 fun s hs => hk s (List.mem_cons_of_mem _ hs)⟩
end

theorem is_guarded {lib : Lib} {tree : Tree} (hL : Legal tree) (hG : NoBareChoice tree) (T : Ty) (mod : Module) (t : AType)
    (h : T.Body noHoles lib tree mod t) (hk : CoreIn tree mod t) : T.Guarded :=
  body_guarded (fun _ _ _ h => h.elim) (fun _ _ _ h => h.elim) hL hG T mod t h hk

/-! ## Leaves -/

mutual
theorem body_leaves {H : Holes} {lib : Lib} {tree : Tree} {P : Leaf → Prop} (hU : ∀ T mod t, H T mod t → T.Leaves P) (hP : ∀ k l, LeafFor lib k l → P l) : ∀ (T : Ty) (mod : Module) (t : AType), T.Body H lib tree mod t →
    T.Leaves P
  | .leaf l id, mod, t, ⟨wm, k, _, h⟩ => hP k l h
  | .seqOf id T, mod, t, ⟨wm, n, u, s, hc, hb⟩ => by
    rcases hb with ⟨hb, _⟩ | hb
    · exact body_leaves hU hP T wm u hb
    · exact hU T wm u hb
  | .seq id fs, mod, t, ⟨wm, cs, e, hc, hb⟩ => fields_leaves hU hP fs _ wm _ hb
  | .set id ext fs, mod, t, ⟨wm, cs, hc, hb⟩ => fields_leaves hU hP fs _ wm _ hb
  | .choice cid as, mod, t, ⟨wm, as', s, hc, hb, _⟩ => alts_leaves hU hP as wm _ hb
theorem fields_leaves {H : Holes} {lib : Lib} {tree : Tree} {P : Leaf → Prop} (hU : ∀ T mod t, H T mod t → T.Leaves P) (hP : ∀ k l, LeafFor lib k l → P l) : ∀ (fs : Fields) (all : Bool) (mod : Module) (ss : List Slot),
    fs.Body H lib tree all mod ss → fs.Leaves P
  | .nil, _, _, _, _ => trivial
  | .cons k ls T rest, all, mod, ss, h => by
    obtain ⟨s, ss', rfl, _, _, h12, h3⟩ := h
    refine ⟨?_, fields_leaves hU hP rest all mod ss' h3⟩
    rcases h12 with ⟨h1, _⟩ | h1
    · exact body_leaves hU hP T mod s.type h1
    · exact hU _ _ _ h1
theorem alts_leaves {H : Holes} {lib : Lib} {tree : Tree} {P : Leaf → Prop} (hU : ∀ T mod t, H T mod t → T.Leaves P) (hP : ∀ k l, LeafFor lib k l → P l) : ∀ (as : Alts) (mod : Module) (ts : List AType),
    as.Body H lib tree mod ts → as.Leaves P
  | .nil, _, _, _ => trivial
  | .cons ls T rest, mod, ts, h => by
    obtain ⟨t, ts', rfl, _, h12, h3⟩ := h
    refine ⟨?_, alts_leaves hU hP rest mod ts' h3⟩
    rcases h12 with ⟨h1, _⟩ | h1
    · exact body_leaves hU hP T mod t h1
    · exact hU _ _ _ h1
end

theorem is_leaves {lib : Lib} {tree : Tree} {P : Leaf → Prop} (hP : ∀ k l, LeafFor lib k l → P l) (T : Ty) (mod : Module) (t : AType)
    (h : T.Body noHoles lib tree mod t) : T.Leaves P := body_leaves (fun _ _ _ h => h.elim) hP T mod t h

end FastBer.Ast
