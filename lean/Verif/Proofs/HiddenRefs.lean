import Verif.Proofs.StoredNames
/-!
# References in places that forward declarations serve
-/
namespace FastBer.Ast
open FastBer.Ast.Spec FastBer.Spec

theorem _root_.FastBer.Ast.Spec.Hidden.within {t u : AType} (h : Hidden t u) : Within t u := by
  induction h with
  | choice ha h => exact .child (.choice ha) h
  | seqOf h => exact .child .seqOf h
  | setOf h => exact .child .setOf h
  | sequenceOptional hc _ h => exact .child (.sequence hc) h
  | setOptional hc _ h => exact .child (.set hc) h
  | sequence hc _ ih => exact .child (.sequence hc) ih
  | set hc _ ih => exact .child (.set hc) ih
  | prefixed _ ih => exact .child .prefixed ih

theorem hidden_child {t c u : AType} (h : Child t c) (hh : Hidden c u) : Hidden t u := by
  cases h with
  | choice ha => exact .choice ha hh.within
  | sequence hc => exact .sequence hc hh
  | set hc => exact .set hc hh
  | seqOf => exact .seqOf hh.within
  | setOf => exact .setOf hh.within
  | prefixed => exact .prefixed hh

theorem hidden_within {t c u : AType} (h : Within t c) (hh : Hidden c u) : Hidden t u := by
  rcases h with rfl | h
  · exact hh
  · unfold Inside at h
    induction h with
    | single h1 => exact hidden_child h1 hh
    | tail _ h1 ih => exact ih (hidden_child h1 hh)

/-- A reference that is not hidden is needed before. -/
theorem uses_or_hidden {own : Name} {look : Storage → Prop} {item : AType → Prop} {q : Option Name} {ref : Name} {ps : List AType} (hq : q = none ∨ q = some own) :
    ∀ (n : Nat) (t : AType), sizeOf t ≤ n → Within t (.defined q ref ps) → Uses own look item t ref ∨ Hidden t (.defined q ref ps)
  | 0, t, hn, _ => by cases t <;> simp at hn
  | n + 1, t, hn, h => by
    rcases within_cases h with rfl | ⟨c, hc, hw⟩
    · exact .inl (.reference hq)
    · cases hc with
      | choice ha => exact .inr (.choice ha hw)
      | seqOf => exact .inr (.seqOf hw)
      | setOf => exact .inr (.setOf hw)
      | @sequence cs e c hc =>
        by_cases ho : c.optional = true
        · exact .inr (.sequenceOptional hc ho hw)
        · have hlt : sizeOf c.type ≤ n := by
            have h1 := List.sizeOf_lt_of_mem hc
            have h2 : sizeOf c.type < sizeOf c := by cases c; simp [Comp.type]; omega
            simp at hn; omega
          rcases uses_or_hidden hq n c.type hlt hw with h | h
          · exact .inl (.sequence hc (fun h => absurd h ho) h)
          · exact .inr (.sequence hc h)
      | @set cs e c hc =>
        by_cases ho : c.optional = true
        · exact .inr (.setOptional hc ho hw)
        · have hlt : sizeOf c.type ≤ n := by
            have h1 := List.sizeOf_lt_of_mem hc
            have h2 : sizeOf c.type < sizeOf c := by cases c; simp [Comp.type]; omega
            simp at hn; omega
          rcases uses_or_hidden hq n c.type hlt hw with h | h
          · exact .inl (.set hc (fun h => absurd h ho) h)
          · exact .inr (.set hc h)
      | @prefixed c k md t =>
        rcases uses_or_hidden hq n _ (by simp at hn; omega) hw with h | h
        · exact .inl (.prefixed h)
        · exact .inr (.prefixed h)

/-! ## Storage does not matter -/

theorem within_forget {q : Option Name} {ref : Name} {ps : List AType} : ∀ (n : Nat) {t t' : AType}, sizeOf t ≤ n → forget t' = forget t → Within t (.defined q ref ps) → Within t' (.defined q ref ps)
  | 0, t, _, hn, _, _ => by cases t <;> simp at hn
  | n + 1, t, t', hn, hf, h => by
    rcases within_cases h with rfl | ⟨c, hc, hw⟩
    · exact .inl (forget_defined hf)
    · cases hc with
      | @choice as s a ha =>
        obtain ⟨as', s', rfl, h1⟩ := forget_choice hf
        obtain ⟨a', h2, -, h3⟩ := forgetAlts_other h1 ha
        have hlt : sizeOf a.type ≤ n := by
          have h1 := List.sizeOf_lt_of_mem ha
          have h2 : sizeOf a.type < sizeOf a := by cases a; simp [Named.type]; omega
          simp at hn; omega
        exact .child (.choice h2) (within_forget n hlt h3 hw)
      | seqOf =>
        obtain ⟨u', s', rfl, h1⟩ := forget_seqOf hf
        exact .child .seqOf (within_forget n (by simp at hn; omega) h1 hw)
      | setOf =>
        obtain ⟨u', s', rfl, h1⟩ := forget_setOf hf
        exact .child .setOf (within_forget n (by simp at hn; omega) h1 hw)
      | @sequence cs e c hc =>
        obtain ⟨cs', rfl, h1⟩ := forget_sequence hf
        obtain ⟨c', h2, -, h3, -⟩ := forgetComps_other h1 hc
        have hlt : sizeOf c.type ≤ n := by
          have h1 := List.sizeOf_lt_of_mem hc
          have h2 : sizeOf c.type < sizeOf c := by cases c; simp [Comp.type]; omega
          simp at hn; omega
        exact .child (.sequence h2) (within_forget n hlt h3 hw)
      | @set cs e c hc =>
        obtain ⟨cs', rfl, h1⟩ := forget_set hf
        obtain ⟨c', h2, -, h3, -⟩ := forgetComps_other h1 hc
        have hlt : sizeOf c.type ≤ n := by
          have h1 := List.sizeOf_lt_of_mem hc
          have h2 : sizeOf c.type < sizeOf c := by cases c; simp [Comp.type]; omega
          simp at hn; omega
        exact .child (.set h2) (within_forget n hlt h3 hw)
      | @prefixed c k md t =>
        obtain ⟨u', rfl, h1⟩ := forget_prefixed hf
        exact .child .prefixed (within_forget n (by simp at hn; omega) h1 hw)

theorem hidden_forget {q : Option Name} {ref : Name} {ps : List AType} {t : AType} (h : Hidden t (.defined q ref ps)) : ∀ {t' : AType}, forget t' = forget t → Hidden t' (.defined q ref ps) := by
  generalize hr : AType.defined q ref ps = r at h
  induction h with
  | choice ha h =>
    subst hr
    intro t' hf
    obtain ⟨as', s', rfl, h1⟩ := forget_choice hf
    obtain ⟨a', h2, -, h3⟩ := forgetAlts_other h1 ha
    exact .choice h2 (within_forget _ (Nat.le_refl _) h3 h)
  | seqOf h =>
    subst hr
    intro t' hf
    obtain ⟨u', s', rfl, h1⟩ := forget_seqOf hf
    exact .seqOf (within_forget _ (Nat.le_refl _) h1 h)
  | setOf h =>
    subst hr
    intro t' hf
    obtain ⟨u', s', rfl, h1⟩ := forget_setOf hf
    exact .setOf (within_forget _ (Nat.le_refl _) h1 h)
  | sequenceOptional hc ho h =>
    subst hr
    intro t' hf
    obtain ⟨cs', rfl, h1⟩ := forget_sequence hf
    obtain ⟨c', h2, -, h3, h4, -⟩ := forgetComps_other h1 hc
    exact .sequenceOptional h2 (h4.trans ho) (within_forget _ (Nat.le_refl _) h3 h)
  | setOptional hc ho h =>
    subst hr
    intro t' hf
    obtain ⟨cs', rfl, h1⟩ := forget_set hf
    obtain ⟨c', h2, -, h3, h4, -⟩ := forgetComps_other h1 hc
    exact .setOptional h2 (h4.trans ho) (within_forget _ (Nat.le_refl _) h3 h)
  | sequence hc _ ih =>
    intro t' hf
    obtain ⟨cs', rfl, h1⟩ := forget_sequence hf
    obtain ⟨c', h2, -, h3, -⟩ := forgetComps_other h1 hc
    exact .sequence h2 (ih hr h3)
  | set hc _ ih =>
    intro t' hf
    obtain ⟨cs', rfl, h1⟩ := forget_set hf
    obtain ⟨c', h2, -, h3, -⟩ := forgetComps_other h1 hc
    exact .set h2 (ih hr h3)
  | prefixed _ ih =>
    intro t' hf
    obtain ⟨u', rfl, h1⟩ := forget_prefixed hf
    exact .prefixed (ih hr h1)

/-! ## The names of what is split off -/

/-- ENUMERATED is written in the type after OF or after a tag. -/
def EnumWithin (t : AType) : Prop := ∃ v, Within t v ∧
  ((∃ n s, v = .seqOf n (.leaf .enumerated) s) ∨ (∃ n s, v = .setOf n (.leaf .enumerated) s) ∨ ∃ c n k, v = .prefixed c n k (.leaf .enumerated))

/-- ENUMERATED is written in the type after OF, or hidden after a tag. -/
def EnumHidden (t : AType) : Prop := ∃ v, Within t v ∧
  ((∃ n s, v = .seqOf n (.leaf .enumerated) s) ∨ (∃ n s, v = .setOf n (.leaf .enumerated) s) ∨ ∃ c n k, Hidden t v ∧ v = .prefixed c n k (.leaf .enumerated))

/-- The reference is to a type split off, to an enumeration only if there is one. -/
def SplitOff (own : Name) (q : Option Name) (ref : Name) (ns : List (Name × AType)) (E : Prop) : Prop :=
  q = some own ∧ ∃ t', (ref, t') ∈ ns ∧ isList t' = false ∧ (t' = .leaf .enumerated → E)

theorem SplitOff.mono {own : Name} {q : Option Name} {ref : Name} {ns ns' : List (Name × AType)} {E E' : Prop} (h : SplitOff own q ref ns E)
    (hn : ∀ p ∈ ns, p ∈ ns') (hE : E → E') : SplitOff own q ref ns' E' := by
  obtain ⟨h1, t', h2, h3, h4⟩ := h
  exact ⟨h1, t', hn _ h2, h3, fun h => hE (h4 h)⟩

theorem EnumWithin.child {t c : AType} (h : Child t c) (he : EnumWithin c) : EnumWithin t := by
  obtain ⟨v, h1, h2⟩ := he
  exact ⟨v, .child h h1, h2⟩

theorem EnumHidden.child {t c : AType} (h : Child t c) (he : EnumHidden c) : EnumHidden t := by
  obtain ⟨v, h1, h2 | h2 | ⟨_, _, _, h3, h4⟩⟩ := he
  · exact ⟨v, .child h h1, .inl h2⟩
  · exact ⟨v, .child h h1, .inr (.inl h2)⟩
  · exact ⟨v, .child h h1, .inr (.inr ⟨_, _, _, hidden_child h h3, h4⟩)⟩

theorem EnumWithin.hidden {t c : AType} (h : Child t c) (hh : ∀ u, Within c u → Hidden t u) (he : EnumWithin c) : EnumHidden t := by
  obtain ⟨v, h1, h2 | h2 | ⟨_, _, _, h4⟩⟩ := he
  · exact ⟨v, .child h h1, .inl h2⟩
  · exact ⟨v, .child h h1, .inr (.inl h2)⟩
  · exact ⟨v, .child h h1, .inr (.inr ⟨_, _, _, hh v h1, h4⟩)⟩

theorem EnumHidden.within {t c : AType} (h : Within t c) (he : EnumHidden c) : EnumHidden t := by
  rcases h with rfl | h
  · exact he
  · unfold Inside at h
    induction h with
    | single h1 => exact he.child h1
    | tail _ h1 ih => exact ih (he.child h1)

theorem nested_enum {own : Name} {t : AType} {k : Nat} (h : (findNested own t k).1 = .leaf .enumerated) : t = .leaf .enumerated := by
  cases t <;> first | exact h | cases h

theorem unnamedPrefix_list {t : AType} {p : String} (h : unnamedPrefix t = some p) : isList t = false := by
  cases t <;> first | rfl | cases h

/-- What stands where a type inside has been split off. -/
theorem splitInner_off {own : Name} {q : Option Name} {ref : Name} {ps : List AType} {t : AType} {k : Nat} {E : Prop} (h : Within (splitInner own (findNested own t k)).1 (.defined q ref ps))
    (ih : Within (findNested own t k).1 (.defined q ref ps) → Within t (.defined q ref ps) ∨ SplitOff own q ref (findNested own t k).2.1 (EnumWithin t))
    (hE : EnumWithin t → E) (hE' : t = .leaf .enumerated → E) :
    Within t (.defined q ref ps) ∨ SplitOff own q ref (splitInner own (findNested own t k)).2.1 E := by
  have he := nested_enum (own := own) (t := t) (k := k)
  generalize findNested own t k = r at ih h he
  obtain ⟨t', ns, j⟩ := r
  unfold splitInner at h ⊢
  cases hx : unnamedPrefix t' with
  | none =>
    simp only [hx] at h ⊢
    exact (ih h).imp_right fun h => h.mono (fun _ h => h) hE
  | some p =>
    simp only [hx] at h ⊢
    rcases within_cases h with h | ⟨c, hc, -⟩
    · cases h
      exact .inr ⟨rfl, t', by simp, unnamedPrefix_list hx, fun h => hE' (he h)⟩
    · cases hc

theorem nested_off {own : Name} {q : Option Name} {ref : Name} {ps : List AType} : ∀ (n : Nat) (t : AType) (k : Nat), sizeOf t ≤ n → Within (findNested own t k).1 (.defined q ref ps) →
    Within t (.defined q ref ps) ∨ SplitOff own q ref (findNested own t k).2.1 (EnumWithin t)
  | 0, t, _, hn, _ => by cases t <;> simp at hn
  | n + 1, .leaf b, k, _, h => .inl h
  | n + 1, .objField _ c fs, k, _, h => .inl h
  | n + 1, .defined _ _ _, k, _, h => .inl h
  | n + 1, .choice as s, k, hn, h => by
    rcases within_cases h with h | ⟨c, hc, h⟩
    · cases h
    · have hc : Child (.choice (findNestedAlts own as k).1 s) c := hc
      cases hc with
      | choice ha =>
        obtain ⟨a, ha', j, rfl, hp⟩ := nested_alt ha
        have hlt : sizeOf a.type ≤ n := by
          have h1 := List.sizeOf_lt_of_mem ha'
          have h2 : sizeOf a.type < sizeOf a := by cases a; simp [Named.type]; omega
          simp at hn; omega
        exact (nested_off n a.type j hlt h).imp (.child (.choice ha')) fun h => h.mono hp (.child (.choice ha'))
  | n + 1, .sequence cs e, k, hn, h => by
    rcases within_cases h with h | ⟨c, hc, h⟩
    · cases h
    · have hc : Child (.sequence (findNestedComps own cs k).1 e) c := hc
      cases hc with
      | sequence ha =>
        obtain ⟨a, ha', j, rfl, hp⟩ := nested_comp ha
        have hlt : sizeOf a.type ≤ n := by
          have h1 := List.sizeOf_lt_of_mem ha'
          have h2 : sizeOf a.type < sizeOf a := by cases a; simp [Comp.type]; omega
          simp at hn; omega
        exact (nested_off n a.type j hlt h).imp (.child (.sequence ha')) fun h => h.mono hp (.child (.sequence ha'))
  | n + 1, .set cs e, k, hn, h => by
    rcases within_cases h with h | ⟨c, hc, h⟩
    · cases h
    · have hc : Child (.set (findNestedComps own cs k).1 e) c := hc
      cases hc with
      | set ha =>
        obtain ⟨a, ha', j, rfl, hp⟩ := nested_comp ha
        have hlt : sizeOf a.type ≤ n := by
          have h1 := List.sizeOf_lt_of_mem ha'
          have h2 : sizeOf a.type < sizeOf a := by cases a; simp [Comp.type]; omega
          simp at hn; omega
        exact (nested_off n a.type j hlt h).imp (.child (.set ha')) fun h => h.mono hp (.child (.set ha'))
  | n + 1, .seqOf nm t s, k, hn, h => by
    rcases within_cases h with h | ⟨c, hc, h⟩
    · cases h
    · have hc : Child (.seqOf nm (splitInner own (findNested own t k)).1 s) c := hc
      generalize hx : (splitInner own (findNested own t k)).1 = x at hc
      cases hc
      subst hx
      exact (splitInner_off h (nested_off n t k (by simp at hn; omega)) (.child .seqOf) (by rintro rfl; exact ⟨_, .inl rfl, .inl ⟨_, _, rfl⟩⟩)).imp_left (.child .seqOf)
  | n + 1, .setOf nm t s, k, hn, h => by
    rcases within_cases h with h | ⟨c, hc, h⟩
    · cases h
    · have hc : Child (.setOf nm (splitInner own (findNested own t k)).1 s) c := hc
      generalize hx : (splitInner own (findNested own t k)).1 = x at hc
      cases hc
      subst hx
      exact (splitInner_off h (nested_off n t k (by simp at hn; omega)) (.child .setOf) (by rintro rfl; exact ⟨_, .inl rfl, .inr (.inl ⟨_, _, rfl⟩)⟩)).imp_left (.child .setOf)
  | n + 1, .prefixed c i md t, k, hn, h => by
    rcases within_cases h with h | ⟨c', hc, h⟩
    · cases h
    · have hc : Child (.prefixed c i md (splitInner own (findNested own t k)).1) c' := hc
      generalize hx : (splitInner own (findNested own t k)).1 = x at hc
      cases hc
      subst hx
      exact (splitInner_off h (nested_off n t k (by simp at hn; omega)) (.child .prefixed) (by rintro rfl; exact ⟨_, .inl rfl, .inr (.inr ⟨_, _, _, rfl⟩)⟩)).imp_left (.child .prefixed)

/-- The same for hidden references. -/
theorem nested_hidden {own : Name} {q : Option Name} {ref : Name} {ps : List AType} : ∀ (n : Nat) (t : AType) (k : Nat), sizeOf t ≤ n → Hidden (findNested own t k).1 (.defined q ref ps) →
    Hidden t (.defined q ref ps) ∨ SplitOff own q ref (findNested own t k).2.1 (EnumHidden t)
  | 0, t, _, hn, _ => by cases t <;> simp at hn
  | n + 1, .leaf b, k, _, h => .inl h
  | n + 1, .objField _ c fs, k, _, h => .inl h
  | n + 1, .defined _ _ _, k, _, h => .inl h
  | n + 1, .choice as s, k, hn, h => by
    have h : Hidden (.choice (findNestedAlts own as k).1 s) _ := h
    cases h with
    | choice ha h =>
      obtain ⟨a, ha', j, rfl, hp⟩ := nested_alt ha
      exact (nested_off _ a.type j (Nat.le_refl _) h).imp (.choice ha') fun h => h.mono hp (EnumWithin.hidden (.choice ha') fun _ hu => .choice ha' hu)
  | n + 1, .sequence cs e, k, hn, h => by
    have h : Hidden (.sequence (findNestedComps own cs k).1 e) _ := h
    cases h with
    | sequenceOptional ha ho h =>
      obtain ⟨a, ha', j, rfl, hp⟩ := nested_comp ha
      exact (nested_off _ a.type j (Nat.le_refl _) h).imp (.sequenceOptional ha' ho) fun h => h.mono hp (EnumWithin.hidden (.sequence ha') fun _ hu => .sequenceOptional ha' ho hu)
    | sequence ha h =>
      obtain ⟨a, ha', j, rfl, hp⟩ := nested_comp ha
      have hlt : sizeOf a.type ≤ n := by
        have h1 := List.sizeOf_lt_of_mem ha'
        have h2 : sizeOf a.type < sizeOf a := by cases a; simp [Comp.type]; omega
        simp at hn; omega
      exact (nested_hidden n a.type j hlt h).imp (.sequence ha') fun h => h.mono hp (.child (.sequence ha'))
  | n + 1, .set cs e, k, hn, h => by
    have h : Hidden (.set (findNestedComps own cs k).1 e) _ := h
    cases h with
    | setOptional ha ho h =>
      obtain ⟨a, ha', j, rfl, hp⟩ := nested_comp ha
      exact (nested_off _ a.type j (Nat.le_refl _) h).imp (.setOptional ha' ho) fun h => h.mono hp (EnumWithin.hidden (.set ha') fun _ hu => .setOptional ha' ho hu)
    | set ha h =>
      obtain ⟨a, ha', j, rfl, hp⟩ := nested_comp ha
      have hlt : sizeOf a.type ≤ n := by
        have h1 := List.sizeOf_lt_of_mem ha'
        have h2 : sizeOf a.type < sizeOf a := by cases a; simp [Comp.type]; omega
        simp at hn; omega
      exact (nested_hidden n a.type j hlt h).imp (.set ha') fun h => h.mono hp (.child (.set ha'))
  | n + 1, .seqOf nm t s, k, hn, h => by
    have h : Hidden (.seqOf nm (splitInner own (findNested own t k)).1 s) _ := h
    cases h with
    | seqOf h =>
      exact (splitInner_off h (nested_off _ t k (Nat.le_refl _)) (EnumWithin.hidden .seqOf fun _ hu => .seqOf hu) (by rintro rfl; exact ⟨_, .inl rfl, .inl ⟨_, _, rfl⟩⟩)).imp_left .seqOf
  | n + 1, .setOf nm t s, k, hn, h => by
    have h : Hidden (.setOf nm (splitInner own (findNested own t k)).1 s) _ := h
    cases h with
    | setOf h =>
      exact (splitInner_off h (nested_off _ t k (Nat.le_refl _)) (EnumWithin.hidden .setOf fun _ hu => .setOf hu) (by rintro rfl; exact ⟨_, .inl rfl, .inr (.inl ⟨_, _, rfl⟩)⟩)).imp_left .setOf
  | n + 1, .prefixed c i md t, k, hn, h => by
    have h : Hidden (.prefixed c i md (splitInner own (findNested own t k)).1) _ := h
    cases h with
    | prefixed h =>
      have ih := nested_hidden (own := own) (q := q) (ref := ref) (ps := ps) n t k (by simp at hn; omega)
      have e : (findNested own (.prefixed c i md t) k).2.1 = (splitInner own (findNested own t k)).2.1 := by rw [findNested]
      rw [e]
      generalize findNested own t k = r at ih h
      obtain ⟨t', ns, j⟩ := r
      unfold splitInner at h ⊢
      cases hx : unnamedPrefix t' with
      | none =>
        simp only [hx] at h ⊢
        exact (ih h).imp .prefixed fun h => h.mono (fun _ h => h) (.child .prefixed)
      | some p =>
        simp only [hx] at h
        cases h

end FastBer.Ast
