import Verif.Spec.CheckCompile
import Verif.Proofs.Check
/-!
# The checks of `Spec/CheckCompile.lean` are right
-/
namespace FastBer.Ast.Check
open FastBer.Ast FastBer.Ast.Spec

theorem placed_self (t : AType) (n : Name) : (n, t) ∈ placed t n := by cases t <;> simp [placed]

theorem mem_placedComps {n : Name} {cs : List Comp} {c : Comp} (h : c ∈ cs) {x : Name × AType} (ht : x ∈ placed c.type (memberName c.name n)) :
    x ∈ placedComps n cs := by
  induction cs with
  | nil => cases h
  | cons d cs ih =>
    obtain ⟨n, u, o, dv, co, s⟩ := d
    rw [placedComps]
    rcases List.mem_cons.1 h with rfl | h
    · exact List.mem_append_left _ ht
    · exact List.mem_append_right _ (ih h)

theorem mem_placedAlts {as : List Named} {a : Named} (h : a ∈ as) {x : Name × AType} (ht : x ∈ placed a.type (typeName a.name)) : x ∈ placedAlts as := by
  induction as with
  | nil => cases h
  | cons d as ih =>
    obtain ⟨n, u⟩ := d
    rw [placedAlts]
    rcases List.mem_cons.1 h with rfl | h
    · exact List.mem_append_left _ ht
    · exact List.mem_append_right _ (ih h)

mutual
theorem placed_trans : ∀ (t : AType) (n : Name) (x y : Name × AType), x ∈ placed t n → y ∈ placed x.2 x.1 → y ∈ placed t n
  | .leaf k, n, u, v, h, h' => by simp only [placed, List.mem_singleton] at h; subst h; exact h'
  | .objField m c fs, n, u, v, h, h' => by simp only [placed, List.mem_singleton] at h; subst h; exact h'
  | .defined m r ps, n, u, v, h, h' => by simp only [placed, List.mem_singleton] at h; subst h; exact h'
  | .sequence cs e, n, u, v, h, h' => by
    rw [placed] at h ⊢
    rcases List.mem_cons.1 h with rfl | h
    · rw [placed] at h'; exact h'
    · exact List.mem_cons_of_mem _ (placedComps_trans cs n u v h h')
  | .set cs e, n, u, v, h, h' => by
    rw [placed] at h ⊢
    rcases List.mem_cons.1 h with rfl | h
    · rw [placed] at h'; exact h'
    · exact List.mem_cons_of_mem _ (placedComps_trans cs n u v h h')
  | .choice as s, n, u, v, h, h' => by
    rw [placed] at h ⊢
    rcases List.mem_cons.1 h with rfl | h
    · rw [placed] at h'; exact h'
    · exact List.mem_cons_of_mem _ (placedAlts_trans as u v h h')
  | .seqOf m t s, n, u, v, h, h' => by
    rw [placed] at h ⊢
    rcases List.mem_cons.1 h with rfl | h
    · rw [placed] at h'; exact h'
    · exact List.mem_cons_of_mem _ (placed_trans t _ u v h h')
  | .setOf m t s, n, u, v, h, h' => by
    rw [placed] at h ⊢
    rcases List.mem_cons.1 h with rfl | h
    · rw [placed] at h'; exact h'
    · exact List.mem_cons_of_mem _ (placed_trans t _ u v h h')
  | .prefixed c i k t, n, u, v, h, h' => by
    rw [placed] at h ⊢
    rcases List.mem_cons.1 h with rfl | h
    · rw [placed] at h'; exact h'
    · exact List.mem_cons_of_mem _ (placed_trans t _ u v h h')
theorem placedComps_trans : ∀ (cs : List Comp) (n : Name) (x y : Name × AType), x ∈ placedComps n cs → y ∈ placed x.2 x.1 → y ∈ placedComps n cs
  | [], n, u, v, h, _ => by cases h
  | .mk c t o d co s :: cs, n, u, v, h, h' => by
    rw [placedComps] at h ⊢
    rcases List.mem_append.1 h with h | h
    · exact List.mem_append_left _ (placed_trans t _ u v h h')
    · exact List.mem_append_right _ (placedComps_trans cs n u v h h')
theorem placedAlts_trans : ∀ (as : List Named) (x y : Name × AType), x ∈ placedAlts as → y ∈ placed x.2 x.1 → y ∈ placedAlts as
  | [], u, v, h, _ => by cases h
  | .mk a t :: as, u, v, h, h' => by
    rw [placedAlts] at h ⊢
    rcases List.mem_append.1 h with h | h
    · exact List.mem_append_left _ (placed_trans t _ u v h h')
    · exact List.mem_append_right _ (placedAlts_trans as u v h h')
end

/-- Every named type of the tree is a part of an assigned one. -/
theorem placed_parts {tree : Tree} {mod : Module} {n : Name} {t : AType} (h : Placed tree mod n t) :
    mod ∈ tree.modules ∧ ∃ a ∈ mod.assignments, ∃ u, a.body = .type u ∧ (n, t) ∈ placed u a.name := by
  have step : ∀ {mod : Module} {n m : Name} {t v : AType}, (mod ∈ tree.modules ∧ ∃ a ∈ mod.assignments, ∃ u, a.body = .type u ∧ (n, t) ∈ placed u a.name) →
      (m, v) ∈ placed t n → (mod ∈ tree.modules ∧ ∃ a ∈ mod.assignments, ∃ u, a.body = .type u ∧ (m, v) ∈ placed u a.name) := by
    rintro mod n m t v ⟨hm, a, ha, u, hu, ht⟩ hv
    exact ⟨hm, a, ha, u, hu, placed_trans u _ _ _ ht hv⟩
  induction h with
  | assigned hm ha hb => exact ⟨hm, _, ha, _, hb, placed_self _ _⟩
  | sequence _ hc ih => refine step ih ?_; rw [placed]; exact List.mem_cons_of_mem _ (mem_placedComps hc (placed_self _ _))
  | set _ hc ih => refine step ih ?_; rw [placed]; exact List.mem_cons_of_mem _ (mem_placedComps hc (placed_self _ _))
  | choice _ hc ih => refine step ih ?_; rw [placed]; exact List.mem_cons_of_mem _ (mem_placedAlts hc (placed_self _ _))
  | seqOf _ ih => refine step ih ?_; rw [placed]; exact List.mem_cons_of_mem _ (placed_self _ _)
  | setOf _ ih => refine step ih ?_; rw [placed]; exact List.mem_cons_of_mem _ (placed_self _ _)
  | prefixed _ ih => refine step ih ?_; rw [placed]; exact List.mem_cons_of_mem _ (placed_self _ _)

theorem everyPlaced_sound {tree : Tree} {p : Module → Name → AType → Bool} (h : everyPlaced tree p = true) {mod : Module} {n : Name} {t : AType}
    (ho : Placed tree mod n t) : p mod n t = true := by
  obtain ⟨hm, a, ha, u, hu, ht⟩ := placed_parts ho
  have := List.all_eq_true.1 (List.all_eq_true.1 h mod hm) a ha
  rw [hu] at this
  exact List.all_eq_true.1 this _ ht

theorem child_parts {t u : AType} (h : Child t u) : u ∈ parts t := by
  cases h with
  | sequence hc => rw [parts]; exact List.mem_cons_of_mem _ (mem_compParts hc (parts_self _))
  | set hc => rw [parts]; exact List.mem_cons_of_mem _ (mem_compParts hc (parts_self _))
  | choice hc => rw [parts]; exact List.mem_cons_of_mem _ (mem_altParts hc (parts_self _))
  | seqOf => rw [parts]; exact List.mem_cons_of_mem _ (parts_self _)
  | setOf => rw [parts]; exact List.mem_cons_of_mem _ (parts_self _)
  | prefixed => rw [parts]; exact List.mem_cons_of_mem _ (parts_self _)

theorem inside_parts {t u : AType} (h : Inside t u) : u ∈ parts t := by
  unfold Inside at h
  induction h with
  | single h => exact child_parts h
  | tail _ h ih => exact parts_trans _ _ _ ih (child_parts h)

theorem mentioned_parts {t : AType} {m : Option Name} {ref : Name} (h : Mentioned t m ref) : ∃ ps, .defined m ref ps ∈ parts t := by
  obtain ⟨ps, rfl | h⟩ := h
  · exact ⟨ps, parts_self _⟩
  · exact ⟨ps, inside_parts h⟩

theorem orderedIn_sound {own : Name} {modules : List Name} : ∀ {names : List Name} {l : List Assignment}, orderedIn own modules names l = true →
    ∀ as a bs, l = as ++ a :: bs → ∀ t, a.body = .type t → ∀ m ref, Mentioned t m ref →
      if m.getD own = own then ref ∈ names ∨ ∃ b ∈ as, b.name = ref else m.getD own ∈ modules
  | names, [], _, as, a, bs, h, _, _, _, _, _ => by simp at h
  | names, b :: l, h, as, a, bs, hl, t, ht, m, ref, hm => by
    rw [orderedIn, Bool.and_eq_true] at h
    cases as with
    | nil =>
      obtain ⟨rfl, rfl⟩ := List.cons.inj hl
      obtain ⟨ps, hp⟩ := mentioned_parts hm
      have := h.1
      rw [ht] at this
      have := List.all_eq_true.1 this _ hp
      simp only [refersBack] at this
      split <;> rename_i hc
      · rw [if_pos hc] at this; exact .inl (by simpa using this)
      · rw [if_neg hc] at this; simpa using this
    | cons c as =>
      obtain ⟨rfl, hl2⟩ := List.cons.inj hl
      have := orderedIn_sound h.2 as a bs hl2 t ht m ref hm
      split <;> rename_i hc
      · rw [if_pos hc] at this
        rcases this with h | ⟨x, hx, h⟩
        · rcases List.mem_cons.1 h with rfl | h
          · exact .inr ⟨b, List.mem_cons_self, rfl⟩
          · exact .inl h
        · exact .inr ⟨x, List.mem_cons_of_mem _ hx, h⟩
      · rw [if_neg hc] at this; exact this

theorem ordered_sound : ∀ {names : List Name} {l : List Module}, ordered names l = true → ∀ before mod after, l = before ++ mod :: after →
    ∃ modules, orderedIn mod.name modules [] mod.assignments = true ∧ ∀ n ∈ modules, n ∈ names ∨ ∃ w ∈ before, w.name = n
  | names, [], _, before, mod, after, h => by simp at h
  | names, m :: ms, h, before, mod, after, hl => by
    rw [ordered, Bool.and_eq_true] at h
    cases before with
    | nil =>
      obtain ⟨rfl, rfl⟩ := List.cons.inj hl
      exact ⟨names, h.1, fun n h => .inl h⟩
    | cons b before =>
      obtain ⟨rfl, hl2⟩ := List.cons.inj hl
      obtain ⟨modules, h1, h2⟩ := ordered_sound h.2 before mod after hl2
      refine ⟨modules, h1, fun n hn => ?_⟩
      rcases h2 n hn with h | ⟨w, hw, h⟩
      · rcases List.mem_cons.1 h with rfl | h
        · exact .inr ⟨m, List.mem_cons_self, rfl⟩
        · exact .inl h
      · exact .inr ⟨w, List.mem_cons_of_mem _ hw, h⟩

theorem notValues_sound {n : Name} (h : notValues n = true) : ∀ p, n ≠ p ++ "Values" := by
  simp only [notValues, Bool.not_eq_true'] at h
  rintro p rfl
  rw [String.toList_append] at h
  have : ("Values".toList.isSuffixOf (p.toList ++ "Values".toList)) = true := List.isSuffixOf_iff_suffix.2 (List.suffix_append _ _)
  rw [this] at h
  cases h

theorem refersForward_sound {tree : Tree} {mod : Module} {modules names : List Name} {t : AType} {m : Option Name} {ref : Name} {ps : List AType}
    (h : refersForward tree mod modules names (untag t) (.defined m ref ps) = true)
    (hx : (∃ wm u, target tree mod m ref = some (wm, u) ∧ (isList u = true ∨ u = .leaf .enumerated)) ∨ (∃ ps, untag t = .defined m ref ps)) :
    refersBack mod.name modules names (.defined m ref ps) = true := by
  simp only [refersForward, Bool.or_eq_true, Bool.and_eq_true] at h
  rcases h with ⟨h1, h2⟩ | h
  · rcases hx with ⟨wm, u, ht, hu⟩ | ⟨ps', hu⟩
    · rw [ht] at h2
      rcases hu with hu | rfl
      · cases u with
        | seqOf _ _ _ => cases h2
        | setOf _ _ _ => cases h2
        | _ => cases hu
      · cases h2
    · rw [hu] at h1
      simp at h1
  · exact h

theorem forwardIn_sound {tree : Tree} {mod : Module} {modules : List Name} : ∀ {names : List Name} {l : List Assignment}, forwardIn tree mod modules names l = true →
    ∀ as a bs, l = as ++ a :: bs → ∀ t, a.body = .type t → ∀ m ref, Mentioned t m ref →
      (∃ wm u, target tree mod m ref = some (wm, u) ∧ (isList u = true ∨ u = .leaf .enumerated)) ∨ (∃ ps, untag t = .defined m ref ps) →
      if m.getD mod.name = mod.name then ref ∈ names ∨ ∃ b ∈ as, b.name = ref else m.getD mod.name ∈ modules
  | names, [], _, as, a, bs, h, _, _, _, _, _, _ => by simp at h
  | names, b :: l, h, as, a, bs, hl, t, ht, m, ref, hm, hx => by
    rw [forwardIn, Bool.and_eq_true] at h
    cases as with
    | nil =>
      obtain ⟨rfl, rfl⟩ := List.cons.inj hl
      obtain ⟨ps, hp⟩ := mentioned_parts hm
      have := h.1
      rw [ht] at this
      have := refersForward_sound (List.all_eq_true.1 this _ hp) hx
      simp only [refersBack] at this
      split <;> rename_i hc
      · rw [if_pos hc] at this; exact .inl (by simpa using this)
      · rw [if_neg hc] at this; simpa using this
    | cons c as =>
      obtain ⟨rfl, hl2⟩ := List.cons.inj hl
      have := forwardIn_sound h.2 as a bs hl2 t ht m ref hm hx
      split <;> rename_i hc
      · rw [if_pos hc] at this
        rcases this with h | ⟨x, hx, h⟩
        · rcases List.mem_cons.1 h with rfl | h
          · exact .inr ⟨b, List.mem_cons_self, rfl⟩
          · exact .inl h
        · exact .inr ⟨x, List.mem_cons_of_mem _ hx, h⟩
      · rw [if_neg hc] at this; exact this

theorem forward_sound {tree : Tree} : ∀ {names : List Name} {l : List Module}, forward tree names l = true → ∀ before mod after, l = before ++ mod :: after →
    ∃ modules, forwardIn tree mod modules [] mod.assignments = true ∧ ∀ n ∈ modules, n ∈ names ∨ ∃ w ∈ before, w.name = n
  | names, [], _, before, mod, after, h => by simp at h
  | names, m :: ms, h, before, mod, after, hl => by
    rw [forward, Bool.and_eq_true] at h
    cases before with
    | nil =>
      obtain ⟨rfl, rfl⟩ := List.cons.inj hl
      exact ⟨names, h.1, fun n h => .inl h⟩
    | cons b before =>
      obtain ⟨rfl, hl2⟩ := List.cons.inj hl
      obtain ⟨modules, h1, h2⟩ := forward_sound h.2 before mod after hl2
      refine ⟨modules, h1, fun n hn => ?_⟩
      rcases h2 n hn with h | ⟨w, hw, h⟩
      · rcases List.mem_cons.1 h with rfl | h
        · exact .inr ⟨m, List.mem_cons_self, rfl⟩
        · exact .inl h
      · exact .inr ⟨w, List.mem_cons_of_mem _ hw, h⟩

theorem compilableNames_sound {fuel : Nat} {tree : Tree} (h : compilableNames fuel tree = true) : CompilableNames tree := by
  simp only [compilableNames, Bool.and_eq_true] at h
  obtain ⟨⟨⟨h1, h3⟩, h4⟩, h5⟩ := h
  have mods := fun mod hm => (Bool.and_eq_true _ _).mp (List.all_eq_true.1 h1 mod hm)
  have asg := fun mod hm a ha => (Bool.and_eq_true _ _).mp (List.all_eq_true.1 (mods mod hm).2 a ha)
  have ty : ∀ {mod t}, Occurs tree mod t → compilableType fuel tree mod t = true := fun h => every_sound h3 h
  have pl : ∀ {mod n t}, Placed tree mod n t → compilablePlaced tree mod n t = true := fun h => everyPlaced_sound h5 h
  refine ⟨?_, ?_, ?_, ?_, ?_, ?_, ?_, ?_, ?_, ?_, ?_, ?_⟩
  · intro mod hm a ha d hb
    have := (asg mod hm a ha).1
    rw [hb] at this
    cases this
  · intro mod c n k t ho
    have := ty ho
    simpa [compilableType] using this
  · intro mod m ref ps wm u ho hc hu
    have := ty ho
    simp only [compilableType] at this
    split at this
    · rename_i wm' u' hcc
      obtain ⟨rfl, rfl⟩ := (core_sound _ _ _ _ _ hcc).unique hc
      have hx : (isList u' || isEnumerated u') = true := by
        rcases hu with h | h
        · simp [h]
        · subst h; rfl
      rw [hx] at this
      simp only [Bool.not_true, Bool.false_or] at this
      split at this
      · rename_i m2 u2 ht
        cases hc with
        | here h => cases h
        | reference ht' hc' =>
          rw [ht] at ht'
          cases ht'
          obtain ⟨rfl, rfl⟩ := hc'.unique (.here this)
          exact ht
      · cases this
    · cases this
  · rintro mod n t s (ho | ho) <;> simpa [compilableType] using ty ho
  · exact fun mod hm a ha => notValues_sound (asg mod hm a ha).2
  · exact fun mod n t hf => notValues_sound (everyField_sound h4 hf)
  · exact fun mod hm => of_decide_eq_true (mods mod hm).1
  · exact fun mod n cs e h => of_decide_eq_true ((Bool.and_eq_true _ _).mp (pl h)).1
  · exact fun mod n cs e h => of_decide_eq_true ((Bool.and_eq_true _ _).mp (pl h)).1
  · exact fun mod n as s h => of_decide_eq_true (pl h)
  · intro mod n cs e c h hc hs
    have := List.all_eq_true.1 ((Bool.and_eq_true _ _).mp (pl h)).2 c hc
    simpa [hs] using this
  · intro mod n cs e c h hc hs
    have := List.all_eq_true.1 ((Bool.and_eq_true _ _).mp (pl h)).2 c hc
    simpa [hs] using this

/-- The answer `true` is right. -/
theorem compilable_sound {fuel : Nat} {tree : Tree} (h : compilable fuel tree = true) : Compilable tree := by
  simp only [compilable, Bool.and_eq_true] at h
  refine ⟨compilableNames_sound h.1, ?_⟩
  intro before mod after hm as a bs ha t ht m ref hr
  obtain ⟨modules, g1, g2⟩ := ordered_sound h.2 before mod after hm
  have := orderedIn_sound g1 as a bs ha t ht m ref hr
  split <;> rename_i hc
  · rw [if_pos hc] at this; exact this.resolve_left (by simp)
  · rw [if_neg hc] at this; exact (g2 _ this).resolve_left (by simp)

theorem compilableForward_sound {fuel : Nat} {tree : Tree} (h : compilableForward fuel tree = true) : RCompilable tree := by
  simp only [compilableForward, Bool.and_eq_true] at h
  refine ⟨compilableNames_sound h.1, ?_⟩
  intro before mod after hm as a bs ha t ht m ref hr hx
  obtain ⟨modules, g1, g2⟩ := forward_sound h.2 before mod after hm
  have := forwardIn_sound g1 as a bs ha t ht m ref hr hx
  split <;> rename_i hc
  · rw [if_pos hc] at this; exact this.resolve_left (by simp)
  · rw [if_neg hc] at this; exact (g2 _ this).resolve_left (by simp)

theorem defaultsTaken_sound {lib : Lib} {fuel : Nat} {tree : Tree} {p : Builtin → Value → Bool} (h : defaultsTaken fuel tree p = true)
    (hp : ∀ k v, p k v = true → ∀ l i, lib.leaf k = some l ∨ (k = .enumerated ∧ l = .enum) → (lib.default (.leaf l i) v).isSome) :
    DefaultsTaken lib tree := by
  have key : ∀ {mod : Module} {c : Comp} {v : Value}, c.optional = false → c.default = some v → (c.optional || match c.default with
        | none => true
        | some v => match core tree fuel mod c.type with
          | some (_, .leaf k) => p k v
          | _ => false) = true → ∃ wm k, Core tree mod c.type wm (.leaf k) ∧
      ∀ l i, lib.leaf k = some l ∨ (k = .enumerated ∧ l = .enum) → (lib.default (.leaf l i) v).isSome := by
    intro mod c v ho hd h
    rw [ho, hd] at h
    simp only [Bool.false_or] at h
    split at h
    · rename_i wm k hc
      exact ⟨wm, k, core_sound _ _ _ _ _ hc, hp k v h⟩
    · cases h
  rintro mod cs e c v (ho | ho) hc h1 h2
  · exact key h1 h2 (List.all_eq_true.1 (every_sound h ho) c hc)
  · exact key h1 h2 (List.all_eq_true.1 (every_sound h ho) c hc)

end FastBer.Ast.Check
