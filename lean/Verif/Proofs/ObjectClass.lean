import Verif.Proofs.Pipeline
import Verif.Spec.ObjectClass
/-! Proofs about `Model/ObjectClass.lean`. -/
namespace FastBer.Ast
open FastBer.Ast.Spec

/-! ## Folds -/

theorem foldlM_rel {α σ : Type} {R : σ → σ → Prop} (hr : ∀ s, R s s) (ht : ∀ a b c, R a b → R b c → R a c) {f : σ → α → Res σ} :
    ∀ (l : List α), (∀ s a s', a ∈ l → f s a = .ok s' → R s s') → ∀ s s', l.foldlM f s = .ok s' → R s s'
  | [], _, s, s', h => by cases h; exact hr s
  | a :: l, hf, s, s', h => by
    rw [List.foldlM_cons] at h
    obtain ⟨z, h1, h2⟩ := Res.bind_eq_ok.1 h
    exact ht _ _ _ (hf _ _ _ List.mem_cons_self h1) (foldlM_rel hr ht l (fun s a s' ha => hf s a s' (List.mem_cons_of_mem _ ha)) _ _ h2)

theorem foldl_rel {α σ : Type} {R : σ → σ → Prop} (hr : ∀ s, R s s) (ht : ∀ a b c, R a b → R b c → R a c) {f : σ → α → σ} :
    ∀ (l : List α), (∀ s a, a ∈ l → R s (f s a)) → ∀ s, R s (l.foldl f s)
  | [], _, s => hr s
  | a :: l, hf, s => ht _ _ _ (hf _ _ List.mem_cons_self) (foldl_rel hr ht l (fun s a ha => hf s a (List.mem_cons_of_mem _ ha)) _)

/-- If nothing changes in the end, no step changes anything. -/
theorem foldlM_steady {α σ : Type} {R : σ → σ → Prop} (hr : ∀ s, R s s) (ht : ∀ a b c, R a b → R b c → R a c) (ha : ∀ a b, R a b → R b a → a = b) {f : σ → α → Res σ} :
    ∀ (l : List α), (∀ s a s', a ∈ l → f s a = .ok s' → R s s') → ∀ s, l.foldlM f s = .ok s → ∀ a ∈ l, f s a = .ok s
  | [], _, _, _, _, h => by cases h
  | b :: l, hf, s, h, a, hm => by
    rw [List.foldlM_cons] at h
    obtain ⟨z, h1, h2⟩ := Res.bind_eq_ok.1 h
    have hz : s = z := ha _ _ (hf _ _ _ List.mem_cons_self h1) (foldlM_rel hr ht l (fun s a s' ha => hf s a s' (List.mem_cons_of_mem _ ha)) _ _ h2)
    subst hz
    rcases List.mem_cons.1 hm with rfl | hm
    · exact h1
    · exact foldlM_steady hr ht ha l (fun s a s' ha => hf s a s' (List.mem_cons_of_mem _ ha)) s h2 a hm

theorem foldl_steady {α σ : Type} {R : σ → σ → Prop} (hr : ∀ s, R s s) (ht : ∀ a b c, R a b → R b c → R a c) (ha : ∀ a b, R a b → R b a → a = b) {f : σ → α → σ} :
    ∀ (l : List α), (∀ s a, a ∈ l → R s (f s a)) → ∀ s, l.foldl f s = s → ∀ a ∈ l, f s a = s
  | [], _, _, _, _, h => by cases h
  | b :: l, hf, s, h, a, hm => by
    rw [List.foldl_cons] at h
    have hz : s = f s b := ha _ _ (hf _ _ List.mem_cons_self) (by
      have := foldl_rel hr ht l (fun s a ha => hf s a (List.mem_cons_of_mem _ ha)) (f s b)
      rwa [h] at this)
    rw [← hz] at h
    rcases List.mem_cons.1 hm with rfl | hm
    · exact hz.symm
    · exact foldl_steady hr ht ha l (fun s a ha => hf s a (List.mem_cons_of_mem _ ha)) s h a hm

/-! ## The set of names grows -/

/-- What every step does: names are appended, without repetition, all of which are in `N` if those before were. -/
structure Grow (N : Name × Name → Prop) (ns ns' : ClassNames) : Prop where
  pre : ns <+: ns'
  nodup : ns.Nodup → ns'.Nodup
  names : (∀ p ∈ ns, N p) → ∀ p ∈ ns', N p

theorem Grow.refl {N : Name × Name → Prop} (ns : ClassNames) : Grow N ns ns := ⟨List.prefix_refl _, id, id⟩

theorem Grow.trans {N : Name × Name → Prop} {a b c : ClassNames} (h : Grow N a b) (g : Grow N b c) : Grow N a c :=
  ⟨h.pre.trans g.pre, fun x => g.nodup (h.nodup x), fun x => g.names (h.names x)⟩

theorem Grow.antisymm {N : Name × Name → Prop} {a b : ClassNames} (h : Grow N a b) (g : Grow N b a) : a = b :=
  h.pre.eq_of_length (Nat.le_antisymm h.pre.length_le g.pre.length_le)

theorem Grow.add {N : Name × Name → Prop} {ns : ClassNames} {p : Name × Name} (h : (∀ q ∈ ns, N q) → N p) : Grow N ns (ns.add p) := by
  unfold ClassNames.add
  split
  · exact .refl _
  · rename_i hc
    refine ⟨List.prefix_append _ _, fun hn => ?_, fun hN q hq => ?_⟩
    · refine List.nodup_append.2 ⟨hn, by simp, fun a ha b hb => ?_⟩
      rintro rfl
      rw [List.mem_singleton] at hb
      subst hb
      exact hc (List.contains_iff_mem.2 ha)
    · rcases List.mem_append.1 hq with hq | hq
      · exact hN q hq
      · rw [List.mem_singleton] at hq; subst hq; exact h hN

theorem add_eq {ns : ClassNames} {p : Name × Name} (h : ns.add p = ns) : p ∈ ns := by
  unfold ClassNames.add at h
  split at h
  · rename_i hc; exact List.contains_iff_mem.1 hc
  · have := congrArg List.length h
    simp at this

/-- The steps, and what allows them to add a name. -/
structure Allows (tree : Tree) (N : Name × Name → Prop) : Prop where
  class_ : ∀ m ∈ tree.modules, ∀ a ∈ m.assignments, ∀ fs, a.body = .objectClass fs → N (m.name, a.name)
  direct : ∀ m ∈ tree.modules, ∀ a ∈ m.assignments, ∀ q ref, Refers a q ref → ∀ wm ∈ tree.modules, wm.name = q.getD m.name →
    ∀ b ∈ wm.assignments, b.name = ref → ∀ fs, b.body = .objectClass fs → N (m.name, a.name)
  alias : ∀ m ∈ tree.modules, ∀ a ∈ m.assignments, ∀ q ref, Refers a q ref → N (m.name, ref) → N (m.name, a.name)
  imported : ∀ m ∈ tree.modules, ∀ i ∈ m.imports, ∀ n ∈ i.types, N (i.module, n) → N (m.name, n)

theorem not_isAParameter {ref : Name} {ps : List Param} (h : ¬ isAParameter ref ps = true) : ∀ p ∈ ps, p.reference ≠ ref := by
  intro p hp he
  refine h (List.any_eq_true.2 ⟨p, hp, ?_⟩)
  rw [he]; exact beq_self_eq_true _

theorem foundModule {tree : Tree} {n : Name} {m : Module} (h : findModule tree n = .ok m) : m ∈ tree.modules ∧ m.name = n := by
  unfold findModule at h; split at h
  · cases h
    rename_i hf
    exact ⟨List.mem_of_find?_eq_some hf, by simpa using List.find?_some hf⟩
  · cases h

theorem foundAssignment {m : Module} {n : Name} {a : Assignment} (h : findAssignment m n = .ok a) : a ∈ m.assignments ∧ a.name = n := by
  unfold findAssignment at h; split at h
  · cases h
    rename_i hf
    exact ⟨List.mem_of_find?_eq_some hf, by simpa using List.find?_some hf⟩
  · cases h

theorem classNamesRef_grow {tree : Tree} {N : Name × Name → Prop} (hA : Allows tree N) {m : Module} (hm : m ∈ tree.modules) {a : Assignment} (ha : a ∈ m.assignments)
    {q : Option Name} {ref : Name} {ps : List AType} (hb : a.body = .type (.defined q ref ps) ∨ ∃ v, a.body = .value (.defined q ref ps) v) {ns ns' : ClassNames}
    (h : classNamesRef tree m.name a q ref ns = .ok ns') : Grow N ns ns' := by
  unfold classNamesRef at h
  split at h
  · cases h; exact .refl _
  · rename_i hp
    have hr : Refers a q ref := ⟨⟨ps, hb⟩, not_isAParameter hp⟩
    obtain ⟨wm, h3, h4⟩ := Res.bind_eq_ok.1 h
    obtain ⟨b, h5, h6⟩ := Res.bind_eq_ok.1 h4
    obtain ⟨hwm, hwn⟩ := foundModule h3
    obtain ⟨hbm, hbn⟩ := foundAssignment h5
    split at h6
    · rename_i fs hx
      cases h6
      exact .add fun _ => hA.direct m hm a ha q ref hr wm hwm hwn b hbm hbn fs hx
    · split at h6
      · rename_i hc
        cases h6
        exact .add fun hN => hA.alias m hm a ha q ref hr (hN _ (List.contains_iff_mem.1 hc))
      · cases h6; exact .refl _

theorem classNamesAssignment_grow {tree : Tree} {N : Name × Name → Prop} (hA : Allows tree N) {m : Module} (hm : m ∈ tree.modules) {a : Assignment} (ha : a ∈ m.assignments)
    {ns ns' : ClassNames} (h : classNamesAssignment tree m.name a ns = .ok ns') : Grow N ns ns' := by
  unfold classNamesAssignment at h
  split at h
  · rename_i hb; exact classNamesRef_grow hA hm ha (.inl hb) h
  · rename_i hb; exact classNamesRef_grow hA hm ha (.inr ⟨_, hb⟩) h
  · rename_i fs hb
    cases h
    exact .add fun _ => hA.class_ m hm a ha fs hb
  · cases h; exact .refl _

theorem classNamesImported_grow {tree : Tree} {N : Name × Name → Prop} (hA : Allows tree N) {m : Module} (hm : m ∈ tree.modules) {i : Import} (hi : i ∈ m.imports) {n : Name} (hn : n ∈ i.types)
    (ns : ClassNames) : Grow N ns (classNamesImported m.name i.module ns n) := by
  unfold classNamesImported
  split
  · rename_i hc
    exact .add fun hN => hA.imported m hm i hi n hn (hN _ (List.contains_iff_mem.1 hc))
  · exact .refl _

theorem classNamesImports_grow {tree : Tree} {N : Name × Name → Prop} (hA : Allows tree N) (ns : ClassNames) : Grow N ns (classNamesImports tree ns) :=
  foldl_rel (R := Grow N) .refl (fun _ _ _ => .trans) _ (fun ns m hm => foldl_rel (R := Grow N) .refl (fun _ _ _ => .trans) _ (fun ns i hi =>
    foldl_rel (R := Grow N) .refl (fun _ _ _ => .trans) _ (fun ns n hn => classNamesImported_grow hA hm hi hn ns) ns) ns) ns

theorem classNamesModule_grow {tree : Tree} {N : Name × Name → Prop} (hA : Allows tree N) {m : Module} (hm : m ∈ tree.modules) {ns ns' : ClassNames}
    (h : m.assignments.foldlM (fun ns a => classNamesAssignment tree m.name a ns) ns = .ok ns') : Grow N ns ns' :=
  foldlM_rel (R := Grow N) .refl (fun _ _ _ => .trans) _ (fun ns a ns' ha h => classNamesAssignment_grow hA hm ha h) ns ns' h

theorem classNamesModules_grow {tree : Tree} {N : Name × Name → Prop} (hA : Allows tree N) {ns ns' : ClassNames}
    (h : tree.modules.foldlM (fun ns m => m.assignments.foldlM (fun ns a => classNamesAssignment tree m.name a ns) ns) ns = .ok ns') : Grow N ns ns' :=
  foldlM_rel (R := Grow N) .refl (fun _ _ _ => .trans) _ (fun ns m ns' hm h => classNamesModule_grow hA hm h) ns ns' h

theorem classNamesRound_grow {tree : Tree} {N : Name × Name → Prop} (hA : Allows tree N) {ns ns' : ClassNames} (h : classNamesRound tree ns = .ok ns') : Grow N ns ns' := by
  unfold classNamesRound at h
  obtain ⟨z, h1, h2⟩ := Res.bind_eq_ok.1 h
  cases h2
  exact (classNamesModules_grow hA h1).trans (classNamesImports_grow hA z)

/-- What a last round, which adds nothing, means. -/
structure ClassClosed (tree : Tree) (ns : ClassNames) : Prop where
  assignments : ∀ m ∈ tree.modules, ∀ a ∈ m.assignments, classNamesAssignment tree m.name a ns = .ok ns
  imports : ∀ m ∈ tree.modules, ∀ i ∈ m.imports, ∀ n ∈ i.types, classNamesImported m.name i.module ns n = ns

theorem classNamesRound_closed {tree : Tree} {N : Name × Name → Prop} (hA : Allows tree N) {ns : ClassNames} (h : classNamesRound tree ns = .ok ns) : ClassClosed tree ns := by
  unfold classNamesRound at h
  obtain ⟨z, h1, h2⟩ := Res.bind_eq_ok.1 h
  have h3 : classNamesImports tree z = ns := Res.ok.inj h2
  have hz : ns = z := (classNamesModules_grow hA h1).antisymm (h3 ▸ classNamesImports_grow hA z)
  subst hz
  constructor
  · intro m hm
    refine foldlM_steady (R := Grow N) .refl (fun _ _ _ => .trans) (fun _ _ => Grow.antisymm) _ (fun ns a ns' ha h => classNamesAssignment_grow hA hm ha h) ns ?_
    exact foldlM_steady (R := Grow N) .refl (fun _ _ _ => .trans) (fun _ _ => Grow.antisymm) _ (fun ns m ns' hm h => classNamesModule_grow hA hm h) ns h1 m hm
  · intro m hm i hi
    refine foldl_steady (R := Grow N) .refl (fun _ _ _ => .trans) (fun _ _ => Grow.antisymm) _ (fun ns n hn => classNamesImported_grow hA hm hi hn ns) ns ?_
    refine foldl_steady (R := Grow N) .refl (fun _ _ _ => .trans) (fun _ _ => Grow.antisymm) _ (fun ns i hi =>
      foldl_rel (R := Grow N) .refl (fun _ _ _ => .trans) _ (fun ns n hn => classNamesImported_grow hA hm hi hn ns) ns) ns ?_ i hi
    exact foldl_steady (R := Grow N) .refl (fun _ _ _ => .trans) (fun _ _ => Grow.antisymm) _ (fun ns m hm => foldl_rel (R := Grow N) .refl (fun _ _ _ => .trans) _ (fun ns i hi =>
      foldl_rel (R := Grow N) .refl (fun _ _ _ => .trans) _ (fun ns n hn => classNamesImported_grow hA hm hi hn ns) ns) ns) ns h3 m hm

theorem classNamesLoop_ok {tree : Tree} {N : Name × Name → Prop} (hA : Allows tree N) : ∀ (fuel : Nat) {ns ns' : ClassNames}, classNamesLoop tree fuel ns = .ok ns' →
    Grow N ns ns' ∧ ClassClosed tree ns'
  | 0, _, _, h => by cases h
  | fuel + 1, ns, ns', h => by
    rw [classNamesLoop] at h
    obtain ⟨z, h1, h2⟩ := Res.bind_eq_ok.1 h
    have hg := classNamesRound_grow hA h1
    split at h2
    · obtain ⟨g, hc⟩ := classNamesLoop_ok hA fuel h2
      exact ⟨hg.trans g, hc⟩
    · rename_i hl
      cases h2
      have : ns = ns' := hg.pre.eq_of_length (Nat.le_antisymm hg.pre.length_le (Nat.le_of_not_lt hl))
      subst this
      exact ⟨hg, classNamesRound_closed hA h1⟩

/-! ## Termination -/

theorem allows_allNames (tree : Tree) : Allows tree (· ∈ allNames tree) := by
  have ha : ∀ m ∈ tree.modules, ∀ a ∈ m.assignments, (m.name, a.name) ∈ allNames tree := fun m hm a ha =>
    List.mem_flatMap.2 ⟨m, hm, List.mem_append_left _ (List.mem_map.2 ⟨a, ha, rfl⟩)⟩
  have hi : ∀ m ∈ tree.modules, ∀ i ∈ m.imports, ∀ n ∈ i.types, (m.name, n) ∈ allNames tree := fun m hm i hi n hn =>
    List.mem_flatMap.2 ⟨m, hm, List.mem_append_right _ (List.mem_flatMap.2 ⟨i, hi, List.mem_map.2 ⟨n, hn, rfl⟩⟩)⟩
  exact ⟨fun m hm a h _ _ => ha m hm a h, fun m hm a h _ _ _ _ _ _ _ _ _ _ _ => ha m hm a h, fun m hm a h _ _ _ _ => ha m hm a h, fun m hm i h n hn _ => hi m hm i h n hn⟩

theorem classNamesAssignment_total {tree : Tree} {mod : Name} {a : Assignment} {ns : ClassNames} : classNamesAssignment tree mod a ns ≠ .loop ∧ classNamesAssignment tree mod a ns ≠ .ub := by
  have hr : ∀ q ref, classNamesRef tree mod a q ref ns ≠ .loop ∧ classNamesRef tree mod a q ref ns ≠ .ub := by
    intro q ref
    unfold classNamesRef findModule findAssignment
    split
    · simp
    · split
      · rw [Res.ok_bind]
        split
        · rw [Res.ok_bind]
          split
          · simp
          · split <;> simp
        · simp
      · simp
  unfold classNamesAssignment
  split
  · exact hr _ _
  · exact hr _ _
  · simp
  · simp

theorem classNamesRound_total {tree : Tree} {ns : ClassNames} : classNamesRound tree ns ≠ .loop ∧ classNamesRound tree ns ≠ .ub := by
  unfold classNamesRound
  constructor
  · intro h
    rcases Res.bind_eq_loop.1 h with h | ⟨_, _, h⟩
    · refine foldlM_no_loop _ (fun _ => True) _ (fun s m _ _ => ?_) (fun _ _ _ _ _ => trivial) _ trivial h
      exact foldlM_no_loop _ (fun _ => True) _ (fun s a _ _ => classNamesAssignment_total.1) (fun _ _ _ _ _ => trivial) _ trivial
    · cases h
  · intro h
    rcases Res.bind_eq_ub.1 h with h | ⟨_, _, h⟩
    · refine foldlM_no_ub _ _ (fun s m _ => ?_) _ h
      exact foldlM_no_ub _ _ (fun s a _ => classNamesAssignment_total.2) _
    · cases h

theorem classNamesLoop_total {tree : Tree} : ∀ (fuel : Nat) {ns : ClassNames}, ns.Nodup → (∀ p ∈ ns, p ∈ allNames tree) → (allNames tree).length < ns.length + fuel →
    classNamesLoop tree fuel ns ≠ .loop ∧ classNamesLoop tree fuel ns ≠ .ub
  | 0, ns, hn, hs, hl => absurd (length_le_of_nodup_subset ns _ hn hs) (by omega)
  | fuel + 1, ns, hn, hs, hl => by
    rw [classNamesLoop]
    constructor
    · intro h
      rcases Res.bind_eq_loop.1 h with h | ⟨z, h1, h⟩
      · exact classNamesRound_total.1 h
      · have hg := classNamesRound_grow (allows_allNames tree) h1
        split at h
        · exact (classNamesLoop_total fuel (hg.nodup hn) (hg.names hs) (by omega)).1 h
        · cases h
    · intro h
      rcases Res.bind_eq_ub.1 h with h | ⟨z, h1, h⟩
      · exact classNamesRound_total.2 h
      · have hg := classNamesRound_grow (allows_allNames tree) h1
        split at h
        · exact (classNamesLoop_total fuel (hg.nodup hn) (hg.names hs) (by omega)).2 h
        · cases h

theorem objectClassNames_total (tree : Tree) : objectClassNames tree ≠ .loop ∧ objectClassNames tree ≠ .ub :=
  classNamesLoop_total _ .nil (fun _ h => by cases h) (by simp)

theorem createConcrete_total {tree : Tree} {mod : Name} {m : Option Name} {cls : Name} {fs : List Name} :
    createConcrete tree mod m cls fs ≠ .loop ∧ createConcrete tree mod m cls fs ≠ .ub := by
  have hf : ∀ f cfs, fieldType f cfs ≠ .loop ∧ fieldType f cfs ≠ .ub := by
    intro f cfs
    induction cfs with
    | nil => simp [fieldType]
    | cons c cfs ih =>
      rw [fieldType]
      split
      · split <;> simp
      · exact ih
  unfold createConcrete findModule findAssignment
  split
  · rw [Res.ok_bind]
    split
    · rw [Res.ok_bind]
      split
      · split
        · exact hf _ _
        · simp
      · simp
    · simp
  · simp

/-- Neither endless nor undefined. -/
def _root_.FastBer.Ast.Res.Total {α : Type u} (x : Res α) : Prop := x ≠ .loop ∧ x ≠ .ub

theorem Res.Total.ok {α : Type u} (a : α) : (Res.ok a).Total := ⟨nofun, nofun⟩

theorem Res.Total.bind {α β : Type u} {x : Res α} {f : α → Res β} (hx : x.Total) (hf : ∀ a, (f a).Total) : (x >>= f).Total := by
  cases x with
  | ok a => exact hf a
  | throw e => exact ⟨nofun, nofun⟩
  | loop => exact absurd rfl hx.1
  | ub => exact absurd rfl hx.2

theorem Res.Total.mapM {α β : Type} {f : α → Res β} : ∀ (l : List α), (∀ a ∈ l, (f a).Total) → (l.mapM f).Total
  | [], _ => .ok _
  | a :: l, h => by
    rw [List.mapM_cons]
    exact (h a List.mem_cons_self).bind fun _ => (Res.Total.mapM l fun a ha => h a (List.mem_cons_of_mem _ ha)).bind fun _ => .ok _

mutual
theorem classConcrete_total {tree : Tree} {mod : Name} : ∀ t, (classConcrete tree mod t).Total
  | .leaf b => by rw [classConcrete]; exact .ok _
  | .objField q c fs => by rw [classConcrete]; exact createConcrete_total
  | .defined q ref ps => by rw [classConcrete]; exact .ok _
  | .choice as s => by rw [classConcrete]; exact (classConcreteAlts_total as).bind fun _ => .ok _
  | .sequence as s => by rw [classConcrete]; exact (classConcreteComps_total as).bind fun _ => .ok _
  | .set as s => by rw [classConcrete]; exact (classConcreteComps_total as).bind fun _ => .ok _
  | .seqOf n t s => by rw [classConcrete]; exact (classConcrete_total t).bind fun _ => .ok _
  | .setOf n t s => by rw [classConcrete]; exact (classConcrete_total t).bind fun _ => .ok _
  | .prefixed c n k t => by rw [classConcrete]; exact (classConcrete_total t).bind fun _ => .ok _
theorem classConcreteAlts_total {tree : Tree} {mod : Name} : ∀ as : List Named, (classConcreteAlts tree mod as).Total
  | [] => by rw [classConcreteAlts]; exact .ok _
  | .mk n t :: as => by rw [classConcreteAlts]; exact (classConcrete_total t).bind fun _ => (classConcreteAlts_total as).bind fun _ => .ok _
theorem classConcreteComps_total {tree : Tree} {mod : Name} : ∀ as : List Comp, (classConcreteComps tree mod as).Total
  | [] => by rw [classConcreteComps]; exact .ok _
  | .mk n t o d co s :: as => by rw [classConcreteComps]; exact (classConcrete_total t).bind fun _ => (classConcreteComps_total as).bind fun _ => .ok _
end

theorem resolveObjectClasses_total (tree : Tree) : (resolveObjectClasses tree).Total := by
  unfold resolveObjectClasses
  refine Res.Total.bind (objectClassNames_total tree) fun ns => Res.Total.bind (Res.Total.mapM _ fun m _ => ?_) fun _ => .ok _
  refine Res.Total.bind (Res.Total.mapM _ fun a _ => ?_) fun _ => .ok _
  unfold classAssignment
  split
  · exact (classConcrete_total _).bind fun _ => .ok _
  · exact .ok _

/-! ## The names found -/

theorem allows_namesClass {tree : Tree} (hi : ImportsOnly tree) : Allows tree fun p => NamesClass tree p.1 p.2 where
  class_ m hm a ha fs hb := .class_ hm ha hb
  direct m hm a ha q ref hr wm hwm hwn b hb hbn fs hx := .reference hm ha hr (by
    rw [← hwn, ← hbn]; exact .class_ hwm hb hx)
  alias m hm a ha q ref hr h := by
    cases q with
    | none => exact .reference hm ha hr h
    | some q =>
      by_cases hq : q = m.name
      · exact .reference hm ha hr (hq ▸ h)
      · rw [(hi.references m hm a ha q ref hr hq).1]; exact h
  imported m hm i hi n hn h := .imported hm hi hn h

theorem isAParameter_false {ref : Name} {ps : List Param} (h : ∀ p ∈ ps, p.reference ≠ ref) : ¬ isAParameter ref ps = true := by
  intro hp
  obtain ⟨p, hp, he⟩ := List.any_eq_true.1 hp
  exact h p hp (by simpa using he)

theorem _root_.FastBer.Ast.Spec.Refers.assignment {tree : Tree} {mod : Name} {a : Assignment} {q : Option Name} {ref : Name} (h : Refers a q ref) (ns : ClassNames) :
    classNamesAssignment tree mod a ns = classNamesRef tree mod a q ref ns := by
  obtain ⟨⟨ps, hb | ⟨v, hb⟩⟩, -⟩ := h
  · unfold classNamesAssignment; rw [hb]
  · unfold classNamesAssignment; rw [hb]

theorem ClassClosed.complete {tree : Tree} (hi : ImportsOnly tree) {ns : ClassNames} (hc : ClassClosed tree ns) {mod n : Name} (h : NamesClass tree mod n) : (mod, n) ∈ ns := by
  induction h with
  | @class_ m a fs hm ha hb =>
    have := hc.assignments m hm a ha
    unfold classNamesAssignment at this
    rw [hb] at this
    exact add_eq (Res.ok.inj this)
  | @imported m i n hm hi' hn _ ih =>
    have := hc.imports m hm i hi' n hn
    unfold classNamesImported at this
    rw [if_pos (List.contains_iff_mem.2 ih)] at this
    exact add_eq this
  | @reference m a q ref hm ha hr _ ih =>
    have hlocal : (m.name, ref) ∈ ns → (m.name, a.name) ∈ ns := by
      intro hl
      have := hc.assignments m hm a ha
      rw [hr.assignment] at this
      unfold classNamesRef at this
      rw [if_neg (isAParameter_false hr.2)] at this
      obtain ⟨wm, h3, h4⟩ := Res.bind_eq_ok.1 this
      obtain ⟨b, h5, h6⟩ := Res.bind_eq_ok.1 h4
      split at h6
      · exact add_eq (Res.ok.inj h6)
      · rw [if_pos (List.contains_iff_mem.2 hl)] at h6
        exact add_eq (Res.ok.inj h6)
    cases q with
    | none => exact hlocal ih
    | some q =>
      by_cases hq : q = m.name
      · exact hlocal (hq ▸ ih)
      · obtain ⟨h1, i, hi1, rfl, hi2⟩ := hi.references m hm a ha q ref hr hq
        have := hc.imports m hm i hi1 ref hi2
        unfold classNamesImported at this
        rw [if_pos (List.contains_iff_mem.2 (show (i.module, ref) ∈ ns from ih))] at this
        rw [h1]
        exact add_eq this

theorem objectClassNames_iff {tree : Tree} (hi : ImportsOnly tree) {ns : ClassNames} (h : objectClassNames tree = .ok ns) (mod n : Name) :
    (mod, n) ∈ ns ↔ NamesClass tree mod n := by
  obtain ⟨hg, hc⟩ := classNamesLoop_ok (allows_namesClass hi) _ h
  exact ⟨fun hm => hg.names (fun _ h => by cases h) _ hm, hc.complete hi⟩

theorem isRemoved_iff {tree : Tree} (hi : ImportsOnly tree) {ns : ClassNames} (h : objectClassNames tree = .ok ns) {m : Module} (hm : m ∈ tree.modules) {a : Assignment} (ha : a ∈ m.assignments) :
    isRemoved m.name ns a = true ↔ AboutClass tree m.name a := by
  have hp := hi.params m hm a ha
  have href : ∀ q ref ps, (a.body = .type (.defined q ref ps) ∨ ∃ v, a.body = .value (.defined q ref ps) v) →
      (isClassRef m.name ns (.defined q ref ps) = true ↔ AboutClass tree m.name a) := by
    intro q ref ps hb
    have hr : Refers a q ref := ⟨⟨ps, hb⟩, fun p h => by rw [hp] at h; cases h⟩
    unfold isClassRef
    rw [List.contains_iff_mem, objectClassNames_iff hi h]
    constructor
    · exact fun hn => .inr ⟨q, ref, hr, hn⟩
    · rintro (⟨fs, hx⟩ | ⟨q', ref', ⟨⟨ps', hb'⟩, -⟩, hn⟩)
      · rcases hb with hb | ⟨v, hb⟩ <;> rw [hb] at hx <;> cases hx
      · rcases hb with hb | ⟨v, hb⟩ <;> rcases hb' with hb' | ⟨v', hb'⟩ <;> rw [hb] at hb' <;> cases hb' <;> exact hn
  unfold isRemoved
  split
  · rename_i fs hb
    exact ⟨fun _ => .inl ⟨fs, hb⟩, fun _ => rfl⟩
  · rename_i hb; exact href _ _ _ (.inl hb)
  · rename_i hb; exact href _ _ _ (.inr ⟨_, hb⟩)
  · rename_i h1 h2 h3
    rw [hp]
    refine Iff.intro (fun h => by simp at h) ?_
    rintro (⟨fs, hx⟩ | ⟨q, ref, ⟨⟨ps, hb | ⟨v, hb⟩⟩, -⟩, -⟩)
    · exact absurd hx (h1 fs)
    · exact absurd hb (h2 _ _ _)
    · exact absurd hb (h3 _ _ _ _)

/-! ## Fields -/

theorem fieldType_ok {f : Name} {cfs : List ClassField} {t : AType} (h : fieldType f cfs = .ok t) : HasField cfs f t := by
  induction cfs with
  | nil => cases h
  | cons c cs ih =>
    rw [fieldType] at h
    split at h
    · rename_i hn
      split at h
      · rename_i u hu
        cases h
        exact ⟨c, List.mem_cons_self, by simpa using hn, hu⟩
      · cases h
    · obtain ⟨d, h1, h2⟩ := ih h
      exact ⟨d, List.mem_cons_of_mem _ h1, h2⟩

theorem fieldType_of {f : Name} {cfs : List ClassField} {t : AType} (hd : cfs.Pairwise fun a b => a.name ≠ b.name) (h : HasField cfs f t) : fieldType f cfs = .ok t := by
  induction cfs with
  | nil => obtain ⟨_, h, -⟩ := h; cases h
  | cons c cs ih =>
    obtain ⟨d, h1, h2, h3⟩ := h
    rw [List.pairwise_cons] at hd
    rw [fieldType]
    rcases List.mem_cons.1 h1 with rfl | h1
    · rw [if_pos (by rw [h2]; exact beq_self_eq_true _), h3]
    · rw [if_neg (by have := hd.1 d h1; rw [h2] at this; simpa using this)]
      exact ih hd.2 ⟨d, h1, h2, h3⟩

theorem createConcrete_ok {tree : Tree} {mod : Name} {m : Option Name} {cls : Name} {fs : List Name} {t : AType} (h : createConcrete tree mod m cls fs = .ok t) :
    ∃ f cfs, fs = [f] ∧ IsClass tree (m.getD mod) cls cfs ∧ HasField cfs f t := by
  unfold createConcrete at h
  obtain ⟨wm, h1, h'⟩ := Res.bind_eq_ok.1 h
  obtain ⟨a, h2, h3⟩ := Res.bind_eq_ok.1 h'
  clear h h'
  split at h3
  · rename_i cfs hb
    split at h3
    · rename_i f
      exact ⟨f, cfs, rfl, ⟨wm, (foundModule h1).1, (foundModule h1).2, a, (foundAssignment h2).1, (foundAssignment h2).2, hb⟩, fieldType_ok h3⟩
    · cases h3
  · cases h3

theorem createConcrete_of {tree : Tree} (hd : DistinctNames tree) {mod : Name} {m : Option Name} {cls f : Name} {cfs : List ClassField} {t : AType}
    (hc : IsClass tree (m.getD mod) cls cfs) (hf : HasField cfs f t) : createConcrete tree mod m cls [f] = .ok t := by
  obtain ⟨wm, h1, h2, a, h3, h4, h5⟩ := id hc
  unfold createConcrete findModule
  rw [find_key (key := Module.name) hd.modules h1 h2]
  rw [Res.ok_bind]
  unfold findAssignment
  rw [find_key (key := Assignment.name) (hd.assignments wm h1) h3 h4]
  rw [Res.ok_bind, h5]
  exact fieldType_of (hd.fields _ _ _ hc) hf

mutual
theorem classConcrete_ok {tree : Tree} {mod : Name} : ∀ t {t' : AType}, classConcrete tree mod t = .ok t' → Concrete tree mod t t'
  | .leaf b, t', h => by rw [classConcrete] at h; cases h; exact .leaf _
  | .objField q c fs, t', h => by
    rw [classConcrete] at h
    obtain ⟨f, cfs, rfl, h1, h2⟩ := createConcrete_ok h
    exact .field h1 h2
  | .defined q ref ps, t', h => by rw [classConcrete] at h; cases h; exact .defined _ _ _
  | .choice as s, t', h => by
    rw [classConcrete] at h; obtain ⟨_, h1, h2⟩ := Res.bind_eq_ok.1 h; cases h2; exact .choice _ (classConcreteAlts_ok as h1)
  | .sequence as s, t', h => by
    rw [classConcrete] at h; obtain ⟨_, h1, h2⟩ := Res.bind_eq_ok.1 h; cases h2; exact .sequence _ (classConcreteComps_ok as h1)
  | .set as s, t', h => by
    rw [classConcrete] at h; obtain ⟨_, h1, h2⟩ := Res.bind_eq_ok.1 h; cases h2; exact .set _ (classConcreteComps_ok as h1)
  | .seqOf n t s, t', h => by
    rw [classConcrete] at h; obtain ⟨_, h1, h2⟩ := Res.bind_eq_ok.1 h; cases h2; exact .seqOf _ _ (classConcrete_ok t h1)
  | .setOf n t s, t', h => by
    rw [classConcrete] at h; obtain ⟨_, h1, h2⟩ := Res.bind_eq_ok.1 h; cases h2; exact .setOf _ _ (classConcrete_ok t h1)
  | .prefixed c n k t, t', h => by
    rw [classConcrete] at h; obtain ⟨_, h1, h2⟩ := Res.bind_eq_ok.1 h; cases h2; exact .prefixed _ _ _ (classConcrete_ok t h1)
theorem classConcreteAlts_ok {tree : Tree} {mod : Name} : ∀ (as : List Named) {as' : List Named}, classConcreteAlts tree mod as = .ok as' → ConcreteAlts tree mod as as'
  | [], _, h => by rw [classConcreteAlts] at h; cases h; exact .nil
  | .mk n t :: as, _, h => by
    rw [classConcreteAlts] at h
    obtain ⟨_, h1, h⟩ := Res.bind_eq_ok.1 h
    obtain ⟨_, h2, h⟩ := Res.bind_eq_ok.1 h
    cases h
    exact .cons (classConcrete_ok t h1) (classConcreteAlts_ok as h2)
theorem classConcreteComps_ok {tree : Tree} {mod : Name} : ∀ (as : List Comp) {as' : List Comp}, classConcreteComps tree mod as = .ok as' → ConcreteComps tree mod as as'
  | [], _, h => by rw [classConcreteComps] at h; cases h; exact .nil
  | .mk n t o d co s :: as, _, h => by
    rw [classConcreteComps] at h
    obtain ⟨_, h1, h⟩ := Res.bind_eq_ok.1 h
    obtain ⟨_, h2, h⟩ := Res.bind_eq_ok.1 h
    cases h
    exact .cons (classConcrete_ok t h1) (classConcreteComps_ok as h2)
end

mutual
theorem classConcrete_of {tree : Tree} {mod : Name} {P : AType → Prop} (hP : ∀ t u, P t → Child t u → P u)
    (ho : ∀ q c fs, P (.objField q c fs) → ∃ t, createConcrete tree mod q c fs = .ok t) : ∀ t, P t → ∃ t', classConcrete tree mod t = .ok t'
  | .leaf b, _ => ⟨_, by rw [classConcrete]⟩
  | .objField q c fs, h => by rw [classConcrete]; exact ho q c fs h
  | .defined q ref ps, _ => ⟨_, by rw [classConcrete]⟩
  | .choice as s, h => by
    obtain ⟨_, h1⟩ := classConcreteAlts_of hP ho as fun a ha => hP _ _ h (.choice ha)
    exact ⟨_, by rw [classConcrete, h1]; rfl⟩
  | .sequence as s, h => by
    obtain ⟨_, h1⟩ := classConcreteComps_of hP ho as fun a ha => hP _ _ h (.sequence ha)
    exact ⟨_, by rw [classConcrete, h1]; rfl⟩
  | .set as s, h => by
    obtain ⟨_, h1⟩ := classConcreteComps_of hP ho as fun a ha => hP _ _ h (.set ha)
    exact ⟨_, by rw [classConcrete, h1]; rfl⟩
  | .seqOf n t s, h => by
    obtain ⟨_, h1⟩ := classConcrete_of hP ho t (hP _ _ h .seqOf)
    exact ⟨_, by rw [classConcrete, h1]; rfl⟩
  | .setOf n t s, h => by
    obtain ⟨_, h1⟩ := classConcrete_of hP ho t (hP _ _ h .setOf)
    exact ⟨_, by rw [classConcrete, h1]; rfl⟩
  | .prefixed c n k t, h => by
    obtain ⟨_, h1⟩ := classConcrete_of hP ho t (hP _ _ h .prefixed)
    exact ⟨_, by rw [classConcrete, h1]; rfl⟩
theorem classConcreteAlts_of {tree : Tree} {mod : Name} {P : AType → Prop} (hP : ∀ t u, P t → Child t u → P u)
    (ho : ∀ q c fs, P (.objField q c fs) → ∃ t, createConcrete tree mod q c fs = .ok t) : ∀ as : List Named, (∀ a ∈ as, P a.type) → ∃ as', classConcreteAlts tree mod as = .ok as'
  | [], _ => ⟨_, by rw [classConcreteAlts]⟩
  | .mk n t :: as, h => by
    obtain ⟨_, h1⟩ := classConcrete_of hP ho t (h _ List.mem_cons_self)
    obtain ⟨_, h2⟩ := classConcreteAlts_of hP ho as fun a ha => h a (List.mem_cons_of_mem _ ha)
    exact ⟨_, by rw [classConcreteAlts, h1, Res.ok_bind, h2]; rfl⟩
theorem classConcreteComps_of {tree : Tree} {mod : Name} {P : AType → Prop} (hP : ∀ t u, P t → Child t u → P u)
    (ho : ∀ q c fs, P (.objField q c fs) → ∃ t, createConcrete tree mod q c fs = .ok t) : ∀ as : List Comp, (∀ a ∈ as, P a.type) → ∃ as', classConcreteComps tree mod as = .ok as'
  | [], _ => ⟨_, by rw [classConcreteComps]⟩
  | .mk n t o d co s :: as, h => by
    obtain ⟨_, h1⟩ := classConcrete_of hP ho t (h _ List.mem_cons_self)
    obtain ⟨_, h2⟩ := classConcreteComps_of hP ho as fun a ha => h a (List.mem_cons_of_mem _ ha)
    exact ⟨_, by rw [classConcreteComps, h1, Res.ok_bind, h2]; rfl⟩
end

theorem foldlM_total {α σ : Type} {f : σ → α → Res σ} : ∀ (l : List α), (∀ s, ∀ a ∈ l, ∃ s', f s a = .ok s') → ∀ s, ∃ s', l.foldlM f s = .ok s'
  | [], _, s => ⟨s, rfl⟩
  | a :: l, h, s => by
    obtain ⟨z, h1⟩ := h s a List.mem_cons_self
    obtain ⟨y, h2⟩ := foldlM_total l (fun s a ha => h s a (List.mem_cons_of_mem _ ha)) z
    exact ⟨y, by rw [List.foldlM_cons, h1, Res.ok_bind]; exact h2⟩

theorem mapM_total {α β : Type} {f : α → Res β} : ∀ (l : List α), (∀ a ∈ l, ∃ b, f a = .ok b) → ∃ l', l.mapM f = .ok l'
  | [], _ => ⟨[], rfl⟩
  | a :: l, h => by
    obtain ⟨z, h1⟩ := h a List.mem_cons_self
    obtain ⟨y, h2⟩ := mapM_total l fun a ha => h a (List.mem_cons_of_mem _ ha)
    exact ⟨z :: y, by rw [List.mapM_cons, h1, Res.ok_bind, h2]; rfl⟩

theorem classNamesRound_of {tree : Tree} (hd : DistinctNames tree) (hr : ClassesResolve tree) (ns : ClassNames) : ∃ ns', classNamesRound tree ns = .ok ns' := by
  have hstep : ∀ ns, ∀ m ∈ tree.modules, ∃ ns', m.assignments.foldlM (fun ns a => classNamesAssignment tree m.name a ns) ns = .ok ns' := by
    intro ns m hm
    refine foldlM_total (f := fun ns a => classNamesAssignment tree m.name a ns) m.assignments (fun ns a ha => ?_) ns
    have href : ∀ q ref ps, (a.body = .type (.defined q ref ps) ∨ ∃ v, a.body = .value (.defined q ref ps) v) → ∃ ns', classNamesRef tree m.name a q ref ns = .ok ns' := by
      intro q ref ps hb
      unfold classNamesRef
      split
      · exact ⟨_, rfl⟩
      · rename_i hp
        obtain ⟨m', h1, h2, b, h3, h4⟩ := hr.references m hm a ha q ref ⟨⟨ps, hb⟩, not_isAParameter hp⟩
        unfold findModule
        rw [find_key (key := Module.name) hd.modules h1 h2]
        rw [Res.ok_bind]
        unfold findAssignment
        rw [find_key (key := Assignment.name) (hd.assignments m' h1) h3 h4, Res.ok_bind]
        split
        · exact ⟨_, rfl⟩
        · split <;> exact ⟨_, rfl⟩
    unfold classNamesAssignment
    split
    · rename_i hb; exact href _ _ _ (.inl hb)
    · rename_i hb; exact href _ _ _ (.inr ⟨_, hb⟩)
    · exact ⟨_, rfl⟩
    · exact ⟨_, rfl⟩
  obtain ⟨z, h⟩ := foldlM_total (f := fun ns m => m.assignments.foldlM (fun ns a => classNamesAssignment tree m.name a ns) ns) tree.modules hstep ns
  exact ⟨_, by unfold classNamesRound; rw [h]; rfl⟩

theorem classNamesLoop_of {tree : Tree} (hd : DistinctNames tree) (hr : ClassesResolve tree) : ∀ (fuel : Nat) (ns : ClassNames) (e : Err), classNamesLoop tree fuel ns ≠ .throw e
  | 0, ns, e => nofun
  | fuel + 1, ns, e => by
    obtain ⟨z, h⟩ := classNamesRound_of hd hr ns
    rw [classNamesLoop, h, Res.ok_bind]
    split
    · exact classNamesLoop_of hd hr fuel z e
    · exact nofun

theorem objectClassNames_of {tree : Tree} (hd : DistinctNames tree) (hr : ClassesResolve tree) : ∃ ns, objectClassNames tree = .ok ns := by
  have h1 := objectClassNames_total tree
  have h2 : ∀ e, objectClassNames tree ≠ .throw e := classNamesLoop_of hd hr _ _
  cases h : objectClassNames tree with
  | ok ns => exact ⟨ns, rfl⟩
  | throw e => exact absurd h (h2 e)
  | loop => exact absurd h h1.1
  | ub => exact absurd h h1.2

theorem classAssignment_of {tree : Tree} (hd : DistinctNames tree) (hr : ClassesResolve tree) {m : Module} (hm : m ∈ tree.modules) {a : Assignment} (ha : a ∈ m.assignments) :
    ∃ a', classAssignment tree m.name a = .ok a' := by
  unfold classAssignment
  split
  · rename_i t hb
    obtain ⟨t', h⟩ := classConcrete_of (tree := tree) (mod := m.name) (P := Occurs tree m) (fun t u => occurs_child) (fun q c fs ho => by
      obtain ⟨f, cfs, u, rfl, h1, h2⟩ := hr.fields m q c fs ho
      exact ⟨u, createConcrete_of hd h1 h2⟩) t (.assigned hm ha hb)
    exact ⟨_, by rw [h]; rfl⟩
  · exact ⟨_, rfl⟩

theorem resolveObjectClasses_of {tree : Tree} (hd : DistinctNames tree) (hr : ClassesResolve tree) : ∃ out, resolveObjectClasses tree = .ok out := by
  unfold resolveObjectClasses
  obtain ⟨ns, h⟩ := objectClassNames_of hd hr
  obtain ⟨ms, h2⟩ := mapM_total (f := fun m : Module => (do
    let as ← m.assignments.mapM (classAssignment tree m.name)
    .ok { m with assignments := as } : Res Module)) tree.modules fun m hm => by
      obtain ⟨as, h3⟩ := mapM_total (f := classAssignment tree m.name) m.assignments fun a ha => classAssignment_of hd hr hm ha
      exact ⟨_, by rw [h3]; rfl⟩
  exact ⟨_, by rw [h, Res.ok_bind, h2]; rfl⟩

theorem _root_.FastBer.Ast.Spec.ConcreteAlts.mem {tree : Tree} {mod : Name} {as as' : List Named} (h : ConcreteAlts tree mod as as') {a : Named} (ha : a ∈ as) :
    ∃ t', Concrete tree mod a.type t' := by
  induction as generalizing as' with
  | nil => cases ha
  | cons b as ih =>
    cases h with
    | cons h1 h2 =>
      rcases List.mem_cons.1 ha with rfl | ha
      · exact ⟨_, h1⟩
      · exact ih h2 ha

theorem _root_.FastBer.Ast.Spec.ConcreteComps.mem {tree : Tree} {mod : Name} {as as' : List Comp} (h : ConcreteComps tree mod as as') {a : Comp} (ha : a ∈ as) :
    ∃ t', Concrete tree mod a.type t' := by
  induction as generalizing as' with
  | nil => cases ha
  | cons b as ih =>
    cases h with
    | cons h1 h2 =>
      rcases List.mem_cons.1 ha with rfl | ha
      · exact ⟨_, h1⟩
      · exact ih h2 ha

mutual
theorem _root_.FastBer.Ast.Spec.Concrete.free {tree : Tree} {P : AType → Prop} (hf : ∀ mod cls fs, IsClass tree mod cls fs → ∀ f t, HasField fs f t → ¬ Somewhere P t)
    (hP : ∀ t, P t → ∃ q c fs, t = .objField q c fs) {mod : Name} {t t' : AType} : Concrete tree mod t t' → ¬ Somewhere P t'
  | .leaf k => fun h => by
    rcases somewhere_iff.1 h with h | ⟨c, hc, -⟩
    · obtain ⟨_, _, _, h⟩ := hP _ h; cases h
    · cases hc
  | .defined m ref ps => fun h => by
    rcases somewhere_iff.1 h with h | ⟨c, hc, -⟩
    · obtain ⟨_, _, _, h⟩ := hP _ h; cases h
    · cases hc
  | .field h1 h2 => hf _ _ _ h1 _ _ h2
  | .choice s h1 => fun h => by
    rcases somewhere_iff.1 h with h | ⟨c, hc, hs⟩
    · obtain ⟨_, _, _, h⟩ := hP _ h; cases h
    · cases hc with | choice ha => exact h1.free hf hP _ ha hs
  | .sequence s h1 => fun h => by
    rcases somewhere_iff.1 h with h | ⟨c, hc, hs⟩
    · obtain ⟨_, _, _, h⟩ := hP _ h; cases h
    · cases hc with | sequence ha => exact h1.free hf hP _ ha hs
  | .set s h1 => fun h => by
    rcases somewhere_iff.1 h with h | ⟨c, hc, hs⟩
    · obtain ⟨_, _, _, h⟩ := hP _ h; cases h
    · cases hc with | set ha => exact h1.free hf hP _ ha hs
  | .seqOf n s h1 => fun h => by
    rcases somewhere_iff.1 h with h | ⟨c, hc, hs⟩
    · obtain ⟨_, _, _, h⟩ := hP _ h; cases h
    · cases hc; exact h1.free hf hP hs
  | .setOf n s h1 => fun h => by
    rcases somewhere_iff.1 h with h | ⟨c, hc, hs⟩
    · obtain ⟨_, _, _, h⟩ := hP _ h; cases h
    · cases hc; exact h1.free hf hP hs
  | .prefixed c n k h1 => fun h => by
    rcases somewhere_iff.1 h with h | ⟨c, hc, hs⟩
    · obtain ⟨_, _, _, h⟩ := hP _ h; cases h
    · cases hc; exact h1.free hf hP hs
theorem _root_.FastBer.Ast.Spec.ConcreteAlts.free {tree : Tree} {P : AType → Prop} (hf : ∀ mod cls fs, IsClass tree mod cls fs → ∀ f t, HasField fs f t → ¬ Somewhere P t)
    (hP : ∀ t, P t → ∃ q c fs, t = .objField q c fs) {mod : Name} {as as' : List Named} : ConcreteAlts tree mod as as' → ∀ a ∈ as', ¬ Somewhere P a.type
  | .nil => fun _ h => by cases h
  | .cons h1 h2 => fun a ha => by
    rcases List.mem_cons.1 ha with rfl | ha
    · exact h1.free hf hP
    · exact h2.free hf hP a ha
theorem _root_.FastBer.Ast.Spec.ConcreteComps.free {tree : Tree} {P : AType → Prop} (hf : ∀ mod cls fs, IsClass tree mod cls fs → ∀ f t, HasField fs f t → ¬ Somewhere P t)
    (hP : ∀ t, P t → ∃ q c fs, t = .objField q c fs) {mod : Name} {as as' : List Comp} : ConcreteComps tree mod as as' → ∀ a ∈ as', ¬ Somewhere P a.type
  | .nil => fun _ h => by cases h
  | .cons h1 h2 => fun a ha => by
    rcases List.mem_cons.1 ha with rfl | ha
    · exact h1.free hf hP
    · exact h2.free hf hP a ha
end

end FastBer.Ast
