import Verif.Proofs.ObjectClass
import Verif.Props.Emit
import Verif.Model.Pipeline
/-!
# C80: information object classes

`resolveObjectClasses` is the pass that deals with classes; `tree` is the schema as it is then, with an assignment `N ::= M.N` for every imported `N`.
-/
namespace FastBer.Props
open FastBer.Ast FastBer.Ast.Spec FastBer.Spec

/-- C80 (termination): the pass comes to an end, with a result or an exception. -/
theorem C80_terminates (tree : Tree) : resolveObjectClasses tree ≠ .loop ∧ resolveObjectClasses tree ≠ .ub := resolveObjectClasses_total tree

/-- `a'` is the assignment `a` of module `mod` with the types of the fields in place of `C.&f`. -/
structure ConcreteAssignment (tree : Tree) (mod : Name) (a a' : Assignment) : Prop where
  name : a'.name = a.name
  params : a'.params = a.params
  types : ∀ t, a.body = .type t → ∃ t', a'.body = .type t' ∧ Concrete tree mod t t'
  others : (∀ t, a.body ≠ .type t) → a'.body = a.body

/-- `m'` is the module `m` without classes, names for classes and objects, and with the types of the fields in place of `C.&f`. -/
structure ConcreteModule (tree : Tree) (m m' : Module) : Prop where
  name : m'.name = m.name
  tagging : m'.tagging = m.tagging
  kept : ∀ a ∈ m.assignments, ¬ AboutClass tree m.name a → ∃ a' ∈ m'.assignments, ConcreteAssignment tree m.name a a'
  only : ∀ a' ∈ m'.assignments, ∃ a ∈ m.assignments, ¬ AboutClass tree m.name a ∧ ConcreteAssignment tree m.name a a'
  imports : Pointwise (fun i i' => i'.module = i.module ∧ i'.values = i.values ∧ ∀ n, n ∈ i'.types ↔ n ∈ i.types ∧ ¬ NamesClass tree i.module n) m.imports m'.imports

theorem classAssignment_ok {tree : Tree} {mod : Name} {a a' : Assignment} (h : classAssignment tree mod a = .ok a') : ConcreteAssignment tree mod a a' := by
  unfold classAssignment at h
  split at h
  · rename_i t hb
    obtain ⟨t', h1, h2⟩ := Res.bind_eq_ok.1 h
    cases h2
    refine ⟨rfl, rfl, fun u hu => ⟨t', rfl, ?_⟩, fun hn => absurd hb (hn t)⟩
    rw [hb] at hu
    cases hu
    exact classConcrete_ok t h1
  · rename_i hn
    cases h
    exact ⟨rfl, rfl, fun t hb => absurd hb (hn t), fun _ => rfl⟩

theorem mem_mapM {α β : Type} {f : α → Res β} {l : List α} {l' : List β} (h : l.mapM f = .ok l') :
    (∀ a ∈ l, ∃ b ∈ l', f a = .ok b) ∧ ∀ b ∈ l', ∃ a ∈ l, f a = .ok b := by
  have hp := pointwise_mapM (r := fun a b => f a = .ok b) l l' h fun a b _ h => h
  exact ⟨fun a ha => pointwise_left hp ha, fun b hb => pointwise_right hp hb⟩

theorem pointwise_map_right {α β γ : Type} {r : α → γ → Prop} {f : β → γ} {l : List α} {l' : List β} (h : Pointwise (fun a b => r a (f b)) l l') : Pointwise r l (l'.map f) := by
  induction h with
  | nil => exact .nil
  | cons h1 _ ih => exact .cons h1 ih

theorem pointwise_refl {α : Type} {r : α → α → Prop} (h : ∀ a, r a a) : ∀ l : List α, Pointwise r l l
  | [] => .nil
  | a :: l => .cons (h a) (pointwise_refl h l)

/-- Where a name is assigned the field of a class, `N ::= C.&f`, and the type of that field is a reference, then it is one to a type. -/
def FieldsAreTypes (tree : Tree) : Prop :=
  ∀ m ∈ tree.modules, ∀ a ∈ m.assignments, ∀ q c f cfs, a.body = .type (.objField q c [f]) → IsClass tree (q.getD m.name) c cfs →
    ∀ q' ref ps, HasField cfs f (.defined q' ref ps) → ¬ NamesClass tree (q'.getD m.name) ref

/-- C80 (result): if the pass succeeds, the type of the field stands in place of every `C.&f`; classes, further names of classes, and objects are gone; and everything else is as it was.
Missing, because it is false (`C80_violated_*`): assignments that refer to another module other than through an import. -/
theorem C80_result_partial {tree out : Tree} (hi : ImportsOnly tree) (hn : FieldsAreTypes tree) (h : resolveObjectClasses tree = .ok out) :
    Pointwise (ConcreteModule tree) tree.modules out.modules := by
  unfold resolveObjectClasses at h
  obtain ⟨ns, h1, h2⟩ := Res.bind_eq_ok.1 h
  obtain ⟨ms, h3, h4⟩ := Res.bind_eq_ok.1 h2
  clear h h2
  cases h4
  refine pointwise_map_right (pointwise_mapM _ _ h3 fun m m1 hm h => ?_)
  obtain ⟨as, h4, h5⟩ := Res.bind_eq_ok.1 h
  cases h5
  obtain ⟨g1, g2⟩ := mem_mapM h4
  have hiff : ∀ a ∈ m.assignments, ∀ a', classAssignment tree m.name a = .ok a' → (isRemoved m.name ns a' = true ↔ AboutClass tree m.name a) := by
    intro a ha a' he
    rw [← isRemoved_iff hi h1 hm ha]
    have hp := hi.params m hm a ha
    unfold classAssignment at he
    split at he
    · rename_i t hb
      obtain ⟨t', h6, h7⟩ := Res.bind_eq_ok.1 he
      cases h7
      have hc := classConcrete_ok t h6
      unfold isRemoved
      rw [hb]
      cases hc with
      | @field q c f cfs u h8 h9 =>
        have := hn m hm a ha q c f cfs hb h8
        cases t' with
        | defined m' ref ps =>
          refine ⟨fun hr => absurd ((objectClassNames_iff hi h1 _ _).1 (List.contains_iff_mem.1 hr)) (this _ _ _ h9), fun hr => ?_⟩
          simp [hp] at hr
        | _ => exact Iff.rfl
      | _ => exact Iff.rfl
    · cases he; exact Iff.rfl
  refine ⟨rfl, rfl, fun a ha hna => ?_, fun a' ha' => ?_, ?_⟩
  · obtain ⟨a', ha', he⟩ := g1 a ha
    refine ⟨a', List.mem_filter.2 ⟨ha', ?_⟩, classAssignment_ok he⟩
    have := hiff a ha a' he
    simp only [Bool.not_eq_true', ← Bool.not_eq_true]
    exact fun hr => hna (this.1 hr)
  · obtain ⟨h5, h6⟩ := List.mem_filter.1 ha'
    obtain ⟨a, ha, he⟩ := g2 a' h5
    refine ⟨a, ha, fun hab => ?_, classAssignment_ok he⟩
    have h6 : isRemoved m.name ns a' = false := by simpa using h6
    rw [(hiff a ha a' he).2 hab] at h6
    cases h6
  · refine pointwise_map_right (pointwise_refl (fun i => ⟨rfl, rfl, fun n => ?_⟩) m.imports)
    show n ∈ List.filter _ _ ↔ _
    rw [List.mem_filter, Bool.not_eq_true', ← Bool.not_eq_true, List.contains_iff_mem, objectClassNames_iff hi h1]

/-- C80 (acceptance): the pass succeeds exactly when every reference that is assigned to a name, or is the type of a value, is defined, and every `C.&f` is about a class with such a field. -/
theorem C80_accepts {tree : Tree} (hd : DistinctNames tree) : (∃ out, resolveObjectClasses tree = .ok out) ↔ ClassesResolve tree := by
  refine ⟨?_, resolveObjectClasses_of hd⟩
  rintro ⟨out, h⟩
  unfold resolveObjectClasses at h
  obtain ⟨ns, h1, h2⟩ := Res.bind_eq_ok.1 h
  obtain ⟨ms, h3, h4⟩ := Res.bind_eq_ok.1 h2
  clear h h2 h4
  obtain ⟨-, hc⟩ := classNamesLoop_ok (allows_allNames tree) _ h1
  refine ⟨fun m hm a ha q ref hr => ?_, fun m q c fs ho => ?_⟩
  · have := hc.assignments m hm a ha
    rw [hr.assignment] at this
    unfold classNamesRef at this
    rw [if_neg (isAParameter_false hr.2)] at this
    obtain ⟨wm, h3, h4⟩ := Res.bind_eq_ok.1 this
    obtain ⟨b, h5, h6⟩ := Res.bind_eq_ok.1 h4
    exact ⟨wm, (foundModule h3).1, (foundModule h3).2, b, (foundAssignment h5).1, (foundAssignment h5).2⟩
  · have hall : ∀ m t, Occurs tree m t → ∃ t', Concrete tree m.name t t' := by
      intro m t ho
      induction ho with
      | @assigned a t hm ha hb =>
        obtain ⟨m1, -, he⟩ := (mem_mapM h3).1 m hm
        obtain ⟨as, h4, -⟩ := Res.bind_eq_ok.1 he
        obtain ⟨a', -, h5⟩ := (mem_mapM h4).1 a ha
        obtain ⟨t', -, h6⟩ := (classAssignment_ok h5).types t hb
        exact ⟨t', h6⟩
      | sequence _ hc ih => obtain ⟨_, ih⟩ := ih; cases ih with | sequence _ h => exact h.mem hc
      | set _ hc ih => obtain ⟨_, ih⟩ := ih; cases ih with | set _ h => exact h.mem hc
      | choice _ hc ih => obtain ⟨_, ih⟩ := ih; cases ih with | choice _ h => exact h.mem hc
      | seqOf _ ih => obtain ⟨_, ih⟩ := ih; cases ih with | seqOf _ _ h => exact ⟨_, h⟩
      | setOf _ ih => obtain ⟨_, ih⟩ := ih; cases ih with | setOf _ _ h => exact ⟨_, h⟩
      | prefixed _ ih => obtain ⟨_, ih⟩ := ih; cases ih with | prefixed _ _ _ h => exact ⟨_, h⟩
    obtain ⟨t', h⟩ := hall _ _ ho
    cases h with
    | field h1 h2 => exact ⟨_, _, _, rfl, h1, h2⟩

/-- C80 (completeness): if the types of the fields of classes do not use fields of classes themselves, no `C.&f` is left. -/
theorem C80_complete_partial {tree out : Tree} (hf : ∀ mod cls fs, IsClass tree mod cls fs → ∀ f t, HasField fs f t → ¬ Somewhere (fun u => ∃ q c fs, u = .objField q c fs) t)
    (h : resolveObjectClasses tree = .ok out) : ∀ m q c fs, ¬ Occurs out m (.objField q c fs) := by
  have hfree : ∀ mod t t', Concrete tree mod t t' → ¬ Somewhere (fun u => ∃ q c fs, u = .objField q c fs) t' := fun mod t t' hc => hc.free hf fun _ h => h
  unfold resolveObjectClasses at h
  obtain ⟨ns, h1, h2⟩ := Res.bind_eq_ok.1 h
  obtain ⟨ms, h3, h4⟩ := Res.bind_eq_ok.1 h2
  clear h h2
  cases h4
  have hall : ∀ m t, Occurs ⟨ms.map (removeClasses ns)⟩ m t → ¬ Somewhere (fun u => ∃ q c fs, u = .objField q c fs) t := by
    intro m t ho
    induction ho with
    | @assigned a t hm ha hb =>
      obtain ⟨m1, hm1, rfl⟩ := List.mem_map.1 hm
      obtain ⟨m0, hm0, he⟩ := (mem_mapM h3).2 m1 hm1
      obtain ⟨as, h4, h5⟩ := Res.bind_eq_ok.1 he
      cases h5
      obtain ⟨a0, ha0, h6⟩ := (mem_mapM h4).2 a (List.mem_filter.1 ha).1
      have h7 := classAssignment_ok h6
      by_cases ht : ∃ t0, a0.body = .type t0
      · obtain ⟨t0, ht⟩ := ht
        obtain ⟨t', h8, h9⟩ := h7.types t0 ht
        rw [hb] at h8
        cases h8
        exact hfree _ _ _ h9
      · have := h7.others fun t h => ht ⟨t, h⟩
        exact absurd ⟨t, this.symm.trans hb⟩ ht
    | sequence _ hc ih => exact fun h => ih (.child (.sequence hc) h)
    | set _ hc ih => exact fun h => ih (.child (.set hc) h)
    | choice _ hc ih => exact fun h => ih (.child (.choice hc) h)
    | seqOf _ ih => exact fun h => ih (.child .seqOf h)
    | setOf _ ih => exact fun h => ih (.child .setOf h)
    | prefixed _ ih => exact fun h => ih (.child .prefixed h)
  exact fun m q c fs ho => hall m _ ho (.inl ⟨q, c, fs, rfl⟩)

/-! ## Schemas that meet the conditions, and schemas that do not -/

/-- A class whose fields all have a type. -/
def classOf (fs : List (Name × AType)) : Body := .objectClass (fs.map fun f => ⟨f.1, some f.2⟩)

/-- ```
M DEFINITIONS IMPLICIT TAGS ::= BEGIN
C ::= CLASS { &code INTEGER, &name Name }
D ::= C
Name ::= OCTET STRING
T ::= SEQUENCE { code C.&code, names [0] SEQUENCE OF C.&name OPTIONAL }
END
N DEFINITIONS IMPLICIT TAGS ::= BEGIN
IMPORTS T, D FROM M;
END
``` after the imports have been made assignments. -/
def classTree : Tree := ⟨[
  ⟨"M", .implicit, [], [⟨"C", classOf [("&code", .leaf .integer), ("&name", localRef "Name")], []⟩, ⟨"D", .type (localRef "C"), []⟩, ⟨"Name", .type (.leaf .octetString), []⟩,
    ⟨"T", .type (.sequence [plainComp "code" (.objField none "C" ["&code"]), optionalComp "names" (tagged0 0 (listOf (.objField none "C" ["&name"])))] false), []⟩]⟩,
  ⟨"N", .implicit, [⟨"M", ["T", "D"], []⟩], [⟨"T", .type (.defined (some "M") "T" []), []⟩, ⟨"D", .type (.defined (some "M") "D" []), []⟩]⟩]⟩

/-- `C.&code` has become INTEGER, `C.&name` has become `Name`; `C`, `D` and the import of `D` are gone. -/
theorem class_result : resolveObjectClasses classTree = .ok ⟨[
    ⟨"M", .implicit, [], [⟨"Name", .type (.leaf .octetString), []⟩,
      ⟨"T", .type (.sequence [plainComp "code" (.leaf .integer), optionalComp "names" (tagged0 0 (listOf (localRef "Name")))] false), []⟩]⟩,
    ⟨"N", .implicit, [⟨"M", ["T"], []⟩], [⟨"T", .type (.defined (some "M") "T" []), []⟩]⟩]⟩ := by rfl

theorem class_importsOnly : ImportsOnly classTree where
  params := by simp [classTree]
  references := by
    intro m hm a ha q ref hr hq
    obtain ⟨⟨ps, hr⟩, -⟩ := hr
    simp only [classTree, List.mem_cons, List.not_mem_nil, or_false] at hm
    rcases hm with rfl | rfl <;> simp only [List.mem_cons, List.not_mem_nil, or_false] at ha
    · rcases ha with rfl | rfl | rfl | rfl <;> rcases hr with hr | ⟨_, hr⟩ <;> cases hr
    · rcases ha with rfl | rfl <;> rcases hr with hr | ⟨_, hr⟩ <;> cases hr <;> exact ⟨rfl, _, List.mem_cons_self, rfl, by simp⟩

theorem class_fieldsAreTypes : FieldsAreTypes classTree := by
  intro m hm a ha q c f cfs hb
  simp only [classTree, List.mem_cons, List.not_mem_nil, or_false] at hm
  rcases hm with rfl | rfl <;> simp only [List.mem_cons, List.not_mem_nil, or_false] at ha
  · rcases ha with rfl | rfl | rfl | rfl <;> cases hb
  · rcases ha with rfl | rfl <;> cases hb

theorem class_distinct : DistinctNames classTree where
  modules := by simp [classTree]
  assignments := by
    intro m hm
    simp only [classTree, List.mem_cons, List.not_mem_nil, or_false] at hm
    rcases hm with rfl | rfl <;> simp
  fields := by
    rintro mod cls fs ⟨m, hm, -, a, ha, -, hb⟩
    simp only [classTree, List.mem_cons, List.not_mem_nil, or_false] at hm
    rcases hm with rfl | rfl <;> simp only [List.mem_cons, List.not_mem_nil, or_false] at ha
    · rcases ha with rfl | rfl | rfl | rfl <;> cases hb
      simp
    · rcases ha with rfl | rfl <;> cases hb

theorem class_resolves : ClassesResolve classTree := (C80_accepts class_distinct).1 ⟨_, class_result⟩

/-- C80 is violated: `C ::= CLASS { &a INTEGER, &b C.&a }`, `T ::= C.&b`: what is put in place of `C.&b` is not looked at again, and no code is generated. -/
theorem C80_violated_nested_field :
    let src : Tree := ⟨[⟨"M", .implicit, [], [⟨"C", classOf [("&a", .leaf .integer), ("&b", .objField none "C" ["&a"])], []⟩, ⟨"T", .type (.objField none "C" ["&b"]), []⟩]⟩]⟩
    DistinctNames src ∧ ClassesResolve src ∧ ∀ f, frontEnd (f + 20) src = .ok ⟨[⟨"M", .implicit, [], [⟨"T", .type (.objField none "C" ["&a"]), []⟩]⟩]⟩ := by
  intro src
  have hd : DistinctNames src := by
    refine ⟨by simp [src], ?_, ?_⟩
    · intro m hm
      simp only [src, List.mem_cons, List.not_mem_nil, or_false] at hm
      subst hm
      simp
    · rintro mod cls fs ⟨m, hm, -, a, ha, -, hb⟩
      simp only [src, List.mem_cons, List.not_mem_nil, or_false] at hm
      subst hm
      simp only [List.mem_cons, List.not_mem_nil, or_false] at ha
      rcases ha with rfl | rfl <;> cases hb
      simp
  exact ⟨hd, (C80_accepts hd).1 ⟨⟨[⟨"M", .implicit, [], [⟨"T", .type (.objField none "C" ["&a"]), []⟩]⟩]⟩, rfl⟩, fun f => rfl⟩

/-- C80 is violated: `M … C ::= CLASS { &a INTEGER } …`, `N … IMPORTS C FROM M; T ::= C.&a …`: the compiler reports an error, because by then `C` is a type assignment in `N`. -/
theorem C80_violated_imported_class (f : Nat) :
    frontEnd f ⟨[⟨"M", .implicit, [], [⟨"C", classOf [("&a", .leaf .integer)], []⟩]⟩,
      ⟨"N", .implicit, [⟨"M", ["C"], []⟩], [⟨"T", .type (.objField none "C" ["&a"]), []⟩]⟩]⟩ = .throw .other := by rfl

/-- C80 is violated: `M … X ::= INTEGER …`, `N … X ::= CLASS { &a INTEGER }, Y ::= M.X, Z ::= Y …`: the type `Z` is taken for a class, and there is nothing for it in the output. -/
theorem C80_violated_lost_type (f : Nat) :
    frontEnd (f + 20) ⟨[⟨"M", .implicit, [], [⟨"X", .type (.leaf .integer), []⟩]⟩,
      ⟨"N", .implicit, [], [⟨"X", classOf [("&a", .leaf .integer)], []⟩, ⟨"Y", .type (.defined (some "M") "X" []), []⟩, ⟨"Z", .type (localRef "Y"), []⟩]⟩]⟩ =
      .ok ⟨[⟨"M", .implicit, [], [⟨"X", .type (.leaf .integer), []⟩]⟩, ⟨"N", .implicit, [], [⟨"Y", .type (.defined (some "M") "X" []), []⟩]⟩]⟩ := by rfl

/-- C80 is violated: `M … C ::= CLASS { &a INTEGER }, A ::= C …`, `N … B ::= M.A, D ::= B …`: `B` is removed as another name of a class, but `D` is not, and the compiler reports that
`B` is not defined. -/
theorem C80_violated_class_alias (f : Nat) :
    frontEnd (f + 20) ⟨[⟨"M", .implicit, [], [⟨"C", classOf [("&a", .leaf .integer)], []⟩, ⟨"A", .type (localRef "C"), []⟩]⟩,
      ⟨"N", .implicit, [], [⟨"B", .type (.defined (some "M") "A" []), []⟩, ⟨"D", .type (localRef "B"), []⟩]⟩]⟩ = .throw .undefinedType := by rfl

end FastBer.Props
