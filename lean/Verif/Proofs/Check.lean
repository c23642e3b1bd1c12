import Verif.Spec.Check
import Verif.Proofs.Impl
/-!
# The checks of `Spec/Check.lean` are right
-/
namespace FastBer.Ast.Check
open FastBer.Ast FastBer.Ast.Spec

theorem parts_self (t : AType) : t ∈ parts t := by cases t <;> simp [parts]

theorem mem_compParts {cs : List Comp} {c : Comp} (h : c ∈ cs) {t : AType} (ht : t ∈ parts c.type) : t ∈ compParts cs := by
  induction cs with
  | nil => cases h
  | cons d cs ih =>
    obtain ⟨n, u, o, dv, co, s⟩ := d
    rw [compParts]
    rcases List.mem_cons.1 h with rfl | h
    · exact List.mem_append_left _ ht
    · exact List.mem_append_right _ (ih h)

theorem mem_altParts {as : List Named} {a : Named} (h : a ∈ as) {t : AType} (ht : t ∈ parts a.type) : t ∈ altParts as := by
  induction as with
  | nil => cases h
  | cons d as ih =>
    obtain ⟨n, u⟩ := d
    rw [altParts]
    rcases List.mem_cons.1 h with rfl | h
    · exact List.mem_append_left _ ht
    · exact List.mem_append_right _ (ih h)

mutual
theorem parts_trans : ∀ (t : AType) (u v : AType), u ∈ parts t → v ∈ parts u → v ∈ parts t
  | .leaf k, u, v, h, h' => by simp only [parts, List.mem_singleton] at h; subst h; exact h'
  | .objField m c fs, u, v, h, h' => by simp only [parts, List.mem_singleton] at h; subst h; exact h'
  | .defined m r ps, u, v, h, h' => by simp only [parts, List.mem_singleton] at h; subst h; exact h'
  | .sequence cs e, u, v, h, h' => by
    rw [parts] at h ⊢
    rcases List.mem_cons.1 h with rfl | h
    · rw [parts] at h'; exact h'
    · exact List.mem_cons_of_mem _ (compParts_trans cs u v h h')
  | .set cs e, u, v, h, h' => by
    rw [parts] at h ⊢
    rcases List.mem_cons.1 h with rfl | h
    · rw [parts] at h'; exact h'
    · exact List.mem_cons_of_mem _ (compParts_trans cs u v h h')
  | .choice as s, u, v, h, h' => by
    rw [parts] at h ⊢
    rcases List.mem_cons.1 h with rfl | h
    · rw [parts] at h'; exact h'
    · exact List.mem_cons_of_mem _ (altParts_trans as u v h h')
  | .seqOf n t s, u, v, h, h' => by
    rw [parts] at h ⊢
    rcases List.mem_cons.1 h with rfl | h
    · rw [parts] at h'; exact h'
    · exact List.mem_cons_of_mem _ (parts_trans t u v h h')
  | .setOf n t s, u, v, h, h' => by
    rw [parts] at h ⊢
    rcases List.mem_cons.1 h with rfl | h
    · rw [parts] at h'; exact h'
    · exact List.mem_cons_of_mem _ (parts_trans t u v h h')
  | .prefixed c n k t, u, v, h, h' => by
    rw [parts] at h ⊢
    rcases List.mem_cons.1 h with rfl | h
    · rw [parts] at h'; exact h'
    · exact List.mem_cons_of_mem _ (parts_trans t u v h h')
theorem compParts_trans : ∀ (cs : List Comp) (u v : AType), u ∈ compParts cs → v ∈ parts u → v ∈ compParts cs
  | [], u, v, h, _ => by cases h
  | .mk n t o d co s :: cs, u, v, h, h' => by
    rw [compParts] at h ⊢
    rcases List.mem_append.1 h with h | h
    · exact List.mem_append_left _ (parts_trans t u v h h')
    · exact List.mem_append_right _ (compParts_trans cs u v h h')
theorem altParts_trans : ∀ (as : List Named) (u v : AType), u ∈ altParts as → v ∈ parts u → v ∈ altParts as
  | [], u, v, h, _ => by cases h
  | .mk n t :: as, u, v, h, h' => by
    rw [altParts] at h ⊢
    rcases List.mem_append.1 h with h | h
    · exact List.mem_append_left _ (parts_trans t u v h h')
    · exact List.mem_append_right _ (altParts_trans as u v h h')
end

/-- Every type of the tree is a part of an assigned one. -/
theorem occurs_parts {tree : Tree} {mod : Module} {t : AType} (h : Occurs tree mod t) :
    mod ∈ tree.modules ∧ ∃ a ∈ mod.assignments, ∃ u, a.body = .type u ∧ t ∈ parts u := by
  have step : ∀ {mod : Module} {t v : AType}, (mod ∈ tree.modules ∧ ∃ a ∈ mod.assignments, ∃ u, a.body = .type u ∧ t ∈ parts u) → v ∈ parts t →
      (mod ∈ tree.modules ∧ ∃ a ∈ mod.assignments, ∃ u, a.body = .type u ∧ v ∈ parts u) := by
    rintro mod t v ⟨hm, a, ha, u, hu, ht⟩ hv
    exact ⟨hm, a, ha, u, hu, parts_trans u t v ht hv⟩
  induction h with
  | assigned hm ha hb => exact ⟨hm, _, ha, _, hb, parts_self _⟩
  | sequence _ hc ih => refine step ih ?_; rw [parts]; exact List.mem_cons_of_mem _ (mem_compParts hc (parts_self _))
  | set _ hc ih => refine step ih ?_; rw [parts]; exact List.mem_cons_of_mem _ (mem_compParts hc (parts_self _))
  | choice _ hc ih => refine step ih ?_; rw [parts]; exact List.mem_cons_of_mem _ (mem_altParts hc (parts_self _))
  | seqOf _ ih => refine step ih ?_; rw [parts]; exact List.mem_cons_of_mem _ (parts_self _)
  | setOf _ ih => refine step ih ?_; rw [parts]; exact List.mem_cons_of_mem _ (parts_self _)
  | prefixed _ ih => refine step ih ?_; rw [parts]; exact List.mem_cons_of_mem _ (parts_self _)

theorem every_sound {tree : Tree} {p : Module → AType → Bool} (h : every tree p = true) {mod : Module} {t : AType} (ho : Occurs tree mod t) :
    p mod t = true := by
  obtain ⟨hm, a, ha, u, hu, ht⟩ := occurs_parts ho
  have := List.all_eq_true.1 (List.all_eq_true.1 h mod hm) a ha
  rw [hu] at this
  exact List.all_eq_true.1 this t ht

theorem everyField_sound {tree : Tree} {p : Module → Name → AType → Bool} (h : everyField tree p = true) {mod : Module} {n : Name} {t : AType}
    (hf : Spec.Field tree mod n t) : p mod n t = true := by
  cases hf with
  | sequence ho hc => exact List.all_eq_true.1 (every_sound h ho) (_, _) (List.mem_map.2 ⟨_, hc, rfl⟩)
  | set ho hc => exact List.all_eq_true.1 (every_sound h ho) (_, _) (List.mem_map.2 ⟨_, hc, rfl⟩)
  | choice ho hc => exact List.all_eq_true.1 (every_sound h ho) (_, _) (List.mem_map.2 ⟨_, hc, rfl⟩)

theorem untagged_sound {tree : Tree} : ∀ (f : Nat) (mod : Module) (t : AType) (b : Bool), untagged tree f mod t = some b →
    (Untagged tree mod t ↔ b = true)
  | 0, _, _, _, h => by cases h
  | f + 1, mod, t, b, h => by
    unfold untagged at h
    cases t with
    | choice as s => cases h; exact ⟨fun _ => rfl, fun _ => .choice ..⟩
    | leaf k =>
      cases h
      constructor
      · intro h; cases h; rfl
      · intro h; have := eq_of_beq h; subst this; exact .any _
    | defined m ref ps =>
      simp only at h
      split at h
      · rename_i wm u ht
        refine Iff.trans ⟨fun h => ?_, fun h => .reference ht h⟩ (untagged_sound f wm u b h)
        cases h with
        | reference ht' h => rw [ht] at ht'; cases ht'; exact h
      · rename_i ht
        cases h
        refine ⟨fun h => ?_, fun h => by cases h⟩
        cases h with
        | reference ht' h => rw [ht] at ht'; cases ht'
    | sequence | set | seqOf | setOf | prefixed | objField => cases h; exact ⟨fun h => (by cases h), fun h => by cases h⟩

theorem explicit_sound {tree : Tree} {f : Nat} {mod : Module} {t : AType} {k : TagMode} {b : Bool} (h : explicit tree f mod t k = some b) :
    (ExplicitTag tree mod t k ↔ b = true) := by
  cases k with
  | explicit_ => cases h; exact ⟨fun _ => rfl, fun _ => .keyword⟩
  | implicit => cases h; exact ⟨fun h => (by cases h), fun h => by cases h⟩
  | automatic =>
    simp only [explicit] at h
    split at h
    · rename_i hm; cases h; exact ⟨fun _ => rfl, fun _ => .environment hm⟩
    · rename_i hm
      rw [← untagged_sound f mod t b h]
      constructor
      · intro h
        cases h with
        | environment h => exact absurd h hm
        | untagged h => exact h
      · exact .untagged

theorem addTag_some {tag : Spec.Tag} {e : Option Bool} {o : Option (List Spec.Tag)} {ts : List Spec.Tag} (h : addTag tag e o = some ts) :
    (e = some true ∧ ∃ us, o = some us ∧ ts = tag :: us) ∨ (e = some false ∧ ∃ u us, o = some (u :: us) ∧ ts = tag :: us) := by
  unfold addTag at h
  split at h
  · cases h; exact .inl ⟨rfl, _, rfl, rfl⟩
  · cases h; exact .inr ⟨rfl, _, _, rfl, rfl⟩
  · cases h

theorem ownTags_sound {tree : Tree} : ∀ (f : Nat) (mod : Module) (t : AType) (ts : List Spec.Tag), ownTags tree f mod t = some ts → OwnTags tree mod t ts
  | 0, _, _, _, h => by cases h
  | f + 1, mod, t, ts, h => by
    unfold ownTags at h
    cases t with
    | leaf k =>
      simp only at h
      split at h
      · rename_i hn; cases h; exact .leaf hn
      · cases h
    | sequence | set | seqOf | setOf | choice => cases h; constructor
    | objField => cases h
    | prefixed c n k t =>
      rcases addTag_some h with ⟨he, us, hu, rfl⟩ | ⟨he, u, us, hu, rfl⟩
      · exact .explicit_ ((explicit_sound he).2 rfl) (ownTags_sound f mod t us hu)
      · exact .implicit (fun h => by have := (explicit_sound he).1 h; cases this) (ownTags_sound f mod t _ hu)
    | defined m ref ps =>
      simp only at h
      split at h
      · rename_i wm u ht; exact .reference ht (ownTags_sound f wm u ts h)
      · cases h

theorem core_sound {tree : Tree} : ∀ (f : Nat) (mod : Module) (t : AType) (wm : Module) (u : AType), core tree f mod t = some (wm, u) → Core tree mod t wm u
  | 0, _, _, _, _, h => by cases h
  | f + 1, mod, t, wm, u, h => by
    unfold core at h
    cases t with
    | leaf | sequence | set | seqOf | setOf | choice | objField => cases h; exact .here rfl
    | prefixed c n k t => exact .prefixed (core_sound f mod t wm u h)
    | defined m ref ps =>
      simp only at h
      split at h
      · rename_i wm' u' ht; exact .reference ht (core_sound f wm' u' wm u h)
      · cases h

theorem begins_sound {tree : Tree} : ∀ (f : Nat) (mod : Module) (t : AType), begins tree f mod t = true → Begins tree mod t
  | 0, _, _, h => by cases h
  | f + 1, mod, t, h => by
    unfold begins at h
    cases t with
    | leaf k => exact .leaf h
    | sequence | set | seqOf | setOf => constructor
    | objField => cases h
    | choice as s =>
      simp only [Bool.and_eq_true, Bool.not_eq_true', Bool.or_eq_true, beq_iff_eq, List.all_eq_true] at h
      refine .choice ?_ fun hm a ha => begins_sound f mod a.type (h.2.resolve_left hm a ha)
      rintro rfl
      cases h.1
    | defined m ref ps =>
      simp only at h
      split at h
      · rename_i wm u ht; exact .reference ht (begins_sound f wm u h)
      · cases h
    | prefixed c n k t => constructor

theorem tagSafe_sound {tree : Tree} : ∀ (f : Nat) (mod : Module) (t : AType), tagSafe tree f mod t = true → TagSafe tree mod t
  | 0, _, _, h => by cases h
  | f + 1, mod, t, h => by
    unfold tagSafe at h
    cases t with
    | leaf k => exact .leaf h
    | sequence | set | seqOf | setOf => constructor
    | objField => cases h
    | choice as s =>
      exact .choice (begins_sound f mod _ h)
    | defined m ref ps =>
      simp only at h
      split at h
      · rename_i wm u ht; exact .reference ht (tagSafe_sound f wm u h)
      · cases h
    | prefixed c n k t =>
      simp only [Bool.and_eq_true] at h
      obtain ⟨h1, h2⟩ := h
      have ih := tagSafe_sound f mod t h1
      split at h2
      · rename_i x ts ho
        simp only [Bool.and_eq_true, Bool.or_eq_true, bne_iff_ne, ne_eq] at h2
        refine .prefixed ih (ownTags_sound f mod t _ ho) ?_ ?_
        · rintro rfl
          exact h2.1.resolve_left fun h => h rfl
        · intro he
          have h3 := h2.2
          split at h3
          · exact List.isEmpty_iff.1 h3
          · rename_i hx; have := (explicit_sound hx).1 he; cases this
          · cases h3
      · rename_i ho
        simp only [Bool.and_eq_true, beq_iff_eq] at h2
        obtain ⟨rfl, h3⟩ := h2
        exact .prefixedChoice ih (ownTags_sound f mod t _ ho) h3
      · cases h2

theorem isReference_of {t : AType} {m : Option Name} {ref : Name} {ps : List AType} (h : t = .defined m ref ps) : isReference t = true := by
  subst h; rfl

theorem lost_sound {tree : Tree} : ∀ (f : Nat) (mod : Module) (t : AType), lost tree f mod t = some false → ¬ Lost tree mod t
  | 0, _, _, h => by cases h
  | f + 1, mod, t, h => by
    unfold lost at h
    intro hl
    cases hl with
    | @tagged _ c n k t' m ref ps wm u h1 h2 h3 =>
      simp only [isReference_of h1, if_true] at h
      split at h
      · rename_i wm' u' hc
        obtain ⟨_, rfl⟩ := (core_sound f mod t' wm' u' hc).unique h2
        rw [h3] at h
        cases h
      · cases h
    | reference ht hl =>
      simp only [ht] at h
      exact lost_sound f _ _ h hl

theorem refOk_sound {tree : Tree} {cur : Name} : ∀ (f : Nat) (mod ref : Name), refOk tree cur f mod ref = true → RefOk tree cur mod ref
  | 0, _, _, h => by cases h
  | f + 1, mod, ref, h => by
    unfold refOk at h
    split at h
    · rename_i t hl
      split at h
      · exact .alias hl (refOk_sound f _ _ h)
      · simp only [Bool.and_eq_true, beq_iff_eq] at h
        exact .tagged hl h.1 (refOk_sound f _ _ h.2)
      · rename_i h1 h2
        refine .here hl ?_
        intro m r hr
        cases hr with
        | direct => exact h1 _ _ _ rfl
        | tagged => exact h2 _ _ _ _ _ _ rfl
    · cases h

theorem noneTagged_iff {as : List Named} : NoneTagged as ↔ as.all (fun a => !hasTag a.type) = true := by
  simp only [NoneTagged, List.all_eq_true, Bool.not_eq_true']
  refine forall_congr' fun a => imp_congr_right fun _ => ?_
  cases a.type <;> simp [hasTag]

theorem mapM_some_mem {α β : Type} {g : α → Option β} : ∀ {l : List α} {l' : List β}, l.mapM g = some l' → ∀ a ∈ l, ∃ b ∈ l', g a = some b
  | [], _, _, a, h => by cases h
  | x :: l, l', h, a, ha => by
    rw [List.mapM_cons] at h
    simp only [Option.bind_eq_bind, Option.bind_eq_some_iff, Option.pure_def] at h
    obtain ⟨b, hb, bs, hbs, h⟩ := h
    cases h
    rcases List.mem_cons.1 ha with rfl | ha
    · exact ⟨b, List.mem_cons_self, hb⟩
    · obtain ⟨c, hc, h⟩ := mapM_some_mem hbs a ha
      exact ⟨c, List.mem_cons_of_mem _ hc, h⟩

theorem outermost_sound {tree : Tree} : ∀ (f : Nat) (mod : Module) (t : AType) (l : List Spec.Tag) (x : Spec.Tag), outermost tree f mod t = some l →
    Outermost tree mod t x → x ∈ l
  | 0, _, _, _, _, h, _ => by cases h
  | f + 1, mod, t, l, x, h, ho => by
    unfold outermost at h
    cases ho with
    | leaf hn => simp only [hn] at h; cases h; simp
    | sequence | seqOf | set | setOf | prefixed => cases h; simp
    | @choice _ as s a _ h1 h2 h3 =>
      rw [AutomaticallyTagged, noneTagged_iff] at h1
      simp only [if_neg h1, Option.map_eq_some_iff] at h
      obtain ⟨ls, hls, rfl⟩ := h
      obtain ⟨b, hb, hg⟩ := mapM_some_mem hls a h2
      exact List.mem_flatten.2 ⟨b, hb, outermost_sound f mod a.type b x hg h3⟩
    | @automaticChoice _ as s i h1 h2 =>
      rw [AutomaticallyTagged, noneTagged_iff] at h1
      simp only [if_pos h1] at h
      cases h
      exact List.mem_map.2 ⟨i, List.mem_range.2 h2, rfl⟩
    | reference ht h3 =>
      simp only [ht] at h
      exact outermost_sound f _ _ l x h h3

theorem apart_sound {tree : Tree} {f : Nat} {mod : Module} {t u : AType} (h : apart tree f mod t u = true) : ¬ Clash tree mod t u := by
  rintro ⟨x, h1, h2⟩
  unfold apart at h
  split at h
  · rename_i l l' a b
    have := List.all_eq_true.1 h x (outermost_sound f mod t l x a h1)
    simp only [Bool.not_eq_true', List.contains_eq_mem, decide_eq_false_iff_not] at this
    exact this (outermost_sound f mod u l' x b h2)
  · cases h

theorem numbersApart_sound {tree : Tree} {f : Nat} {mod : Module} {t u : AType} (h : numbersApart tree f mod t u = true) {x y : Spec.Tag}
    (hx : Outermost tree mod t x) (hy : Outermost tree mod u y) : x.2 ≠ y.2 := by
  unfold numbersApart at h
  split at h
  · rename_i l l' a b
    have := List.all_eq_true.1 (List.all_eq_true.1 h x (outermost_sound f mod t l x a hx)) y (outermost_sound f mod u l' y b hy)
    simpa using this
  · cases h

theorem pairwise_sound {α : Type} {p : α → α → Bool} : ∀ {l : List α}, pairwise p l = true → l.Pairwise fun a b => p a b = true
  | [], _ => .nil
  | a :: l, h => by
    simp only [pairwise, Bool.and_eq_true, List.all_eq_true] at h
    exact .cons h.1 (pairwise_sound h.2)

theorem pairwise_get {α : Type} {R : α → α → Prop} {l : List α} (h : l.Pairwise R) {i j : Nat} {a b : α} (hij : i < j) (ha : l[i]? = some a)
    (hb : l[j]? = some b) : R a b := by
  obtain ⟨hi, rfl⟩ := List.getElem?_eq_some_iff.1 ha
  obtain ⟨hj, rfl⟩ := List.getElem?_eq_some_iff.1 hb
  exact List.pairwise_iff_getElem.1 h i j hi hj hij

theorem ahead_sound {tree : Tree} {f : Nat} {mod : Module} {t : AType} : ∀ {ss : List Slot} {j : Nat} {b : Slot}, ahead tree f mod t ss = true → ss[j]? = some b →
    (∀ (k : Nat) (c : Slot), k < j → ss[k]? = some c → c.mayBeAbsent = true) → ¬ Clash tree mod t b.type
  | [], j, b, _, hb, _ => by cases hb
  | s :: ss, j, b, h, hb, hk => by
    simp only [ahead, Bool.and_eq_true, Bool.or_eq_true, Bool.not_eq_true'] at h
    cases j with
    | zero => cases hb; exact apart_sound h.1
    | succ j =>
      have := hk 0 s (by omega) rfl
      refine ahead_sound (h.2.resolve_left (by rw [this]; decide)) hb fun k c hkj hc => hk (k + 1) c (by omega) hc

theorem slotsDistinct_sound {tree : Tree} {f : Nat} {mod : Module} : ∀ {ss : List Slot}, slotsDistinct tree f mod ss = true → SlotsDistinct tree mod ss
  | [], _ => fun i j a b _ ha _ _ => by cases ha
  | s :: ss, h => by
    simp only [slotsDistinct, Bool.and_eq_true, Bool.or_eq_true, Bool.not_eq_true'] at h
    intro i j a b hij ha hb hk
    cases j with
    | zero => omega
    | succ j =>
      cases i with
      | zero =>
        cases ha
        have := hk 0 s (by omega) (by omega) rfl
        exact ahead_sound (h.1.resolve_left (by rw [this]; decide)) hb fun k c hkj hc => hk (k + 1) c (by omega) (by omega) hc
      | succ i => exact slotsDistinct_sound h.2 i j a b (by omega) ha hb fun k c h1 h2 hc => hk (k + 1) c (by omega) (by omega) hc

theorem goodName_sound {n : Name} (h : goodName n = true) : n ≠ "" ∧ ∀ p, n ≠ p ++ "Contained" := by
  simp only [goodName, Bool.and_eq_true, Bool.not_eq_true'] at h
  refine ⟨by simpa using h.1, ?_⟩
  rintro p rfl
  have h2 := h.2
  rw [String.toList_append] at h2
  have : ("Contained".toList.isSuffixOf (p.toList ++ "Contained".toList)) = true := List.isSuffixOf_iff_suffix.2 (List.suffix_append _ _)
  rw [this] at h2
  cases h2

/-- The answer `true` is right. -/
theorem supported_sound {fuel : Nat} {tree : Tree} (h : supported fuel tree = true) : Supported tree := by
  simp only [supported, Bool.and_eq_true] at h
  obtain ⟨⟨⟨h1, h2⟩, h3⟩, h4⟩ := h
  have ty : ∀ {mod t}, Occurs tree mod t → supportedType fuel tree mod t = true := fun h => every_sound h3 h
  have fd : ∀ {mod n t}, Spec.Field tree mod n t → _ := fun h => everyField_sound h4 h
  simp only [supportedField, Bool.and_eq_true, Bool.or_eq_true] at fd
  have mods := fun mod hm => (Bool.and_eq_true _ _).mp (List.all_eq_true.1 h2 mod hm)
  constructor
  · exact (pairwise_sound h1).imp fun h => by simpa using h
  · exact fun mod hm => (pairwise_sound (mods mod hm).1).imp fun h => by simpa using h
  · exact fun mod hm a ha => goodName_sound (List.all_eq_true.1 (mods mod hm).2 a ha)
  · exact fun mod n t hf => goodName_sound (fd hf).1.1
  · intro mod n t hf hl a ha
    have := (fd hf).1.2.resolve_left (by rw [hl]; decide)
    have := List.all_eq_true.1 this a ha
    simpa using this
  · intro mod t ho
    have := ty ho
    simp only [supportedType, Bool.and_eq_true] at this
    exact tagSafe_sound _ _ _ this.1
  · intro mod m ref ps ho
    have := ty ho
    simp only [supportedType, Bool.and_eq_true] at this
    exact refOk_sound _ _ _ this.2.1
  · intro mod c n k c' n' k' t ho m ref ps heq
    have := ty ho
    simp only [supportedType, Bool.and_eq_true, isReference_of heq] at this
    cases this.2
  · intro mod m ref ps wm u ho hc hl
    have := ty ho
    simp only [supportedType, Bool.and_eq_true] at this
    have := this.2.2
    split at this
    · rename_i wm' u' hcc
      obtain ⟨_, rfl⟩ := (core_sound _ _ _ _ _ hcc).unique hc
      simpa [hl] using this
    · cases this
  · intro mod n t s ho
    have := ty ho
    simp only [supportedType, Bool.and_eq_true, beq_iff_eq] at this
    exact lost_sound _ _ _ this.2
  · intro mod n t s ho
    have := ty ho
    simp only [supportedType, Bool.and_eq_true, beq_iff_eq] at this
    exact lost_sound _ _ _ this.2
  · intro mod n t hf hm
    have := (fd hf).2.resolve_left (by rw [hm]; decide)
    simpa using this.1.1
  · intro mod n t ts hf hm ho
    have := (fd hf).2.resolve_left (by rw [hm]; decide)
    have := this.1.2
    split at this
    · rename_i ts' h'
      rw [ho.unique (ownTags_sound _ _ _ _ h')]
      simpa using this
    · cases this
  · intro mod n m ref ps wm u hf hm hc
    have := (fd hf).2.resolve_left (by rw [hm]; decide)
    have := this.2.resolve_left (by simp [isReference])
    split at this
    · rename_i wm' u' hcc
      obtain ⟨_, rfl⟩ := (core_sound _ _ _ _ _ hcc).unique hc
      simpa using this
    · cases this
  · intro mod cs e c ho hm hc
    have := ty ho
    simp only [supportedType, Bool.and_eq_true, Bool.or_eq_true] at this
    have := List.all_eq_true.1 (this.2.resolve_left (by rw [hm]; decide)) c hc
    simpa using this

theorem legal_sound {fuel : Nat} {tree : Tree} (h : legal fuel tree = true) : Legal tree := by
  have ty : ∀ {mod t}, Occurs tree mod t → legalType fuel tree mod t = true := fun ho => every_sound h ho
  constructor
  · intro mod cs e ho
    have := ty ho
    simp only [legalType, Bool.and_eq_true] at this
    exact slotsDistinct_sound this.1
  · intro mod cs e ho i j a b hij ha hb
    have := ty ho
    simp only [legalType, Bool.and_eq_true] at this
    exact apart_sound (pairwise_get (pairwise_sound this.1) hij ha hb)
  · intro mod as s ho i j a b x y hij ha hb hx hy
    have := ty ho
    simp only [legalType, Bool.and_eq_true] at this
    exact numbersApart_sound (pairwise_get (pairwise_sound this.1) hij ha hb) hx hy
  · intro mod c n k t ho
    simpa [legalType] using ty ho
  · intro mod cs e ho
    have := ty ho
    simp only [legalType, Bool.and_eq_true, decide_eq_true_eq] at this
    exact this.2
  · intro mod cs e ho
    have := ty ho
    simp only [legalType, Bool.and_eq_true, decide_eq_true_eq] at this
    exact this.2
  · intro mod as s ho
    have := ty ho
    simp only [legalType, Bool.and_eq_true, decide_eq_true_eq] at this
    exact this.2
  · intro mod n ho
    simpa [legalType] using ty ho

theorem noBareChoice_sound {fuel : Nat} {tree : Tree} (h : noBareChoice fuel tree = true) : NoBareChoice tree := by
  intro mod cs e s ho hs hm hown
  have := List.all_eq_true.1 (every_sound h ho) s hs
  simp only [hm, Bool.false_or] at this
  split at this
  · rename_i x ts h'
    have := hown.unique (ownTags_sound _ _ _ _ h')
    cases this
  · cases this

end FastBer.Ast.Check
