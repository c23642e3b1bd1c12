import Verif.Proofs.Resolve
/-!
# C63: following type references

`resolve_type` is called with the module a type is written in and that type.  `ResultOf` says what the
call gives, for whatever number of references it takes.
-/
namespace FastBer.Props
open FastBer.Ast FastBer.Ast.Spec

/-- The call of `resolve_type_and_module` for type `t` called `n` in module `here` ends, with result `r`. -/
def ResolveResult (tree : Tree) (here n : Name) (t : AType) (r : Res Resolved) : Prop :=
  r ≠ .loop ∧ ∃ fuel, resolveType tree here fuel n t = r

/-- The call never ends. -/
def ResolveDiverges (tree : Tree) (here n : Name) (t : AType) : Prop :=
  ∀ fuel, resolveType tree here fuel n t = .loop

theorem resolveType_untag (tree : Tree) (here n : Name) (fuel : Nat) : ∀ t : AType,
    (∀ m ref ps, untag t = .defined m ref ps → resolveType tree here fuel n t = resolveDefined tree here fuel here m ref) ∧
    ((∀ m ref ps, untag t ≠ .defined m ref ps) → resolveType tree here fuel n t = (do
      let m ← findModule tree here
      .ok ⟨n, untag t, m⟩)) := by
  intro t
  match t with
  | .prefixed c k tm t =>
    rw [resolveType, untag]
    exact resolveType_untag tree here n fuel t
  | .defined m ref ps =>
    rw [resolveType, untag]
    · exact ⟨fun m' r' p' h => by cases h; rfl, fun h => absurd rfl (h _ _ _)⟩
    · intro _ _ _ _ h; cases h
  | .leaf k => rw [resolveType, untag] <;> simp
  | .choice a b => rw [resolveType, untag] <;> simp
  | .sequence a b => rw [resolveType, untag] <;> simp
  | .set a b => rw [resolveType, untag] <;> simp
  | .seqOf a b c => rw [resolveType, untag] <;> simp
  | .setOf a b c => rw [resolveType, untag] <;> simp
  | .objField a b c => rw [resolveType, untag] <;> simp

theorem untag_cases (t : AType) : (∃ m ref ps, untag t = .defined m ref ps) ∨ ∀ m ref ps, untag t ≠ .defined m ref ps := by
  by_cases h : ∃ m ref ps, untag t = .defined m ref ps
  · exact Or.inl h
  · exact Or.inr fun m ref ps he => h ⟨m, ref, ps, he⟩

theorem findModule_exists {tree : Tree} {here : Name} : (∃ m, findModule tree here = .ok m) ↔ ∃ m ∈ tree.modules, m.name = here := by
  unfold findModule
  constructor
  · rintro ⟨m, h⟩
    have := findModule_ok (tree := tree) (n := here) (m := m) (by unfold findModule; exact h)
    exact ⟨m, this.2.2, this.2.1⟩
  · rintro ⟨m, hm, rfl⟩
    split
    · exact ⟨_, rfl⟩
    · rename_i h
      have := List.find?_eq_none.1 h m hm
      simp at this

/-! ## C63 -/

/-- C63, full statement: for every tree, module and type, resolution ends, and what it returns is what the
type stands for. -/
def C63_statement : Prop := ∀ (tree : Tree) (here n : Name) (t : AType),
  ∃ r, ResolveResult tree here n t r ∧
    ∀ x, r = .ok x → TypeStandsFor tree here n t x.name x.type x.module.name

/-- `A ::= M2.B` in module `M1`, `B ::= M1.A` in module `M2`. -/
def crossCycle : Tree := ⟨[⟨"M1", .explicit_, [], [⟨"A", .type (.defined (some "M2") "B" []), []⟩]⟩,
  ⟨"M2", .explicit_, [], [⟨"B", .type (.defined (some "M1") "A" []), []⟩]⟩]⟩

theorem crossCycle_A : lookup crossCycle "M1" "A" = some (.type (.defined (some "M2") "B" [])) := by
  simp [lookup, crossCycle]
theorem crossCycle_B : lookup crossCycle "M2" "B" = some (.type (.defined (some "M1") "A" [])) := by
  simp [lookup, crossCycle]

theorem crossCycle_local (cur : Name) : TaggedRefsLocal crossCycle cur := by
  intro m hm a ha c n k r ps h
  simp only [crossCycle, List.mem_cons, List.not_mem_nil, or_false] at hm
  rcases hm with rfl | rfl <;>
    (simp only [List.mem_cons, List.not_mem_nil, or_false] at ha; subst ha; simp at h)

/-- C63 is false: for two types of different modules that are defined as each other, resolution never ends. -/
theorem C63_terminates_violated : ResolveDiverges crossCycle "M1" "x" (.defined (some "M2") "B" []) ∧ ¬ C63_statement := by
  have h : ResolveDiverges crossCycle "M1" "x" (.defined (some "M2") "B" []) := by
    intro fuel
    rw [resolveType]
    apply resolveDefined_endless (crossCycle_local _)
    refine ⟨fun i => if i % 2 = 0 then ("M2", "B") else ("M1", "A"), rfl, fun i => ?_⟩
    by_cases hi : i % 2 = 0
    · have : (i + 1) % 2 = 1 := by omega
      simp only [hi, this, if_pos]
      exact ⟨_, crossCycle_B, .direct (some "M1") "A" []⟩
    · have h1 : i % 2 = 1 := by omega
      have : (i + 1) % 2 = 0 := by omega
      simp only [h1, this, if_pos]
      exact ⟨_, crossCycle_A, .direct (some "M2") "B" []⟩
  refine ⟨h, fun hs => ?_⟩
  obtain ⟨r, ⟨hr, fuel, hf⟩, _⟩ := hs crossCycle "M1" "x" (.defined (some "M2") "B" [])
  rw [h fuel] at hf
  exact hr hf.symm

/-- Module `M1` has its own `C`; in module `M2`, `B ::= [0] C` and `C` is an INTEGER. -/
def foreignTag : Tree := ⟨[⟨"M1", .explicit_, [], [⟨"C", .type (.leaf .boolean), []⟩]⟩,
  ⟨"M2", .explicit_, [], [⟨"B", .type (.prefixed .contextSpecific 0 .automatic (.defined none "C" [])), []⟩,
    ⟨"C", .type (.leaf .integer), []⟩]⟩]⟩

/-- C63 is false also when resolution ends: a tagged reference of another module is looked up in the
module the call started from.  Here `M2.B`, a tagged INTEGER, is resolved to a tagged BOOLEAN. -/
theorem C63_module_violated :
    (∃ r, ResolveResult foreignTag "M1" "x" (.defined (some "M2") "B" []) (.ok r) ∧
      r.type = .prefixed .contextSpecific 0 .automatic (.leaf .boolean)) ∧
    (∀ n t m, TypeStandsFor foreignTag "M1" "x" (.defined (some "M2") "B" []) n t m →
      t = .prefixed .contextSpecific 0 .automatic (.leaf .integer)) := by
  refine ⟨⟨⟨"B", .prefixed .contextSpecific 0 .automatic (.leaf .boolean), ⟨"M1", .explicit_, [], [⟨"C", .type (.leaf .boolean), []⟩]⟩⟩,
    ⟨by simp, 2, by simp [resolveType, resolveDefined, findModule, findAssignment, foreignTag]⟩, rfl⟩, ?_⟩
  intro n t m h
  have hB : lookup foreignTag "M2" "B" = some (.type (.prefixed .contextSpecific 0 .automatic (.defined none "C" []))) := by
    simp [lookup, foreignTag]
  have hC : lookup foreignTag "M2" "C" = some (.type (.leaf .integer)) := by
    simp [lookup, foreignTag]
  cases h with
  | reference hu hs =>
    rw [untag] at hu
    · cases hu
      cases hs with
      | here hl hn => simp only [Option.getD_some] at hl; rw [hB] at hl; cases hl; exact absurd (.tagged _ _ _ _ _ _) (hn _ _)
      | «alias» hl _ => simp only [Option.getD_some] at hl; rw [hB] at hl; cases hl
      | tagged hl hs =>
        simp only [Option.getD_some] at hl; rw [hB] at hl; cases hl
        simp only [Option.getD_some, Option.getD_none] at hs
        cases hs with
        | here hl hn => rw [hC] at hl; cases hl; rfl
        | «alias» hl _ => rw [hC] at hl; cases hl
        | tagged hl _ => rw [hC] at hl; cases hl
    · intro _ _ _ _ h; cases h
  | itself hu => exact absurd (by rw [untag]; intro _ _ _ _ h; cases h) (hu (some "M2") "B" [])

/-- C63 (part): if tagged references without a module name occur only in the module the call starts from,
a call returns exactly what the type stands for.  Missing: tagged references elsewhere
(`C63_module_violated`). -/
theorem C63_result_partial (tree : Tree) (here n : Name) (t : AType) (hloc : TaggedRefsLocal tree here)
    (n' : Name) (t' : AType) (mod' : Name) :
    (∃ m, ResolveResult tree here n t (.ok ⟨n', t', m⟩) ∧ m.name = mod') ↔ TypeStandsFor tree here n t n' t' mod' := by
  have hu := fun fuel => resolveType_untag tree here n fuel t
  constructor
  · rintro ⟨m, ⟨_, fuel, hf⟩, rfl⟩
    rcases untag_cases t with ⟨m1, ref, ps, h⟩ | h
    · rw [(hu fuel).1 m1 ref ps h] at hf
      exact .reference h (resolveDefined_sound hloc _ _ _ _ _ hf)
    · rw [(hu fuel).2 h] at hf
      obtain ⟨x, hx, hr⟩ := Res.bind_eq_ok.1 hf
      simp only [Res.ok.injEq, Resolved.mk.injEq] at hr
      obtain ⟨rfl, rfl, rfl⟩ := hr
      rw [(findModule_ok hx).2.1]
      exact .itself h (findModule_exists.1 ⟨_, hx⟩)
  · intro h
    cases h with
    | reference h hs =>
      obtain ⟨fuel, wm, h1, h2⟩ := resolveDefined_complete hloc hs here _ rfl
      exact ⟨wm, ⟨by simp, fuel, by rw [(hu fuel).1 _ _ _ h, h1]⟩, h2⟩
    | itself h hm =>
      obtain ⟨m, hm⟩ := findModule_exists.2 hm
      exact ⟨m, ⟨by simp, 0, by rw [(hu 0).2 h, hm]; rfl⟩, (findModule_ok hm).2.1⟩

/-- C63 (part), termination: under the same condition a call fails to end exactly when the chain of
references is endless. -/
theorem C63_terminates_partial (tree : Tree) (here n : Name) (t : AType) (hloc : TaggedRefsLocal tree here) :
    ResolveDiverges tree here n t ↔ TypeEndless tree here t := by
  have hu := fun fuel => resolveType_untag tree here n fuel t
  constructor
  · intro h
    rcases untag_cases t with ⟨m1, ref, ps, hd⟩ | hd
    · refine ⟨m1, ref, ps, hd, endless_of_loop hloc fun module m hm fuel => ?_⟩
      have := h fuel
      rw [(hu fuel).1 _ _ _ hd] at this
      cases fuel with
      | zero => rw [resolveDefined]
      | succ fuel =>
        rw [resolveDefined] at this ⊢
        simp only at hm
        rw [hm]; exact this
    · have := h 0
      rw [(hu 0).2 hd] at this
      rcases findModule_cases tree here with ⟨m, hm⟩ | ⟨e, hm⟩ <;> (rw [hm] at this; cases this)
  · rintro ⟨m1, ref, ps, hd, he⟩ fuel
    rw [(hu fuel).1 _ _ _ hd]
    exact resolveDefined_endless hloc _ _ _ _ he

/-- The call has one result: two calls that end agree. -/
theorem C63_deterministic (tree : Tree) (here n : Name) (t : AType) (r r' : Res Resolved)
    (h : ResolveResult tree here n t r) (h' : ResolveResult tree here n t r') : r = r' := by
  obtain ⟨hr, f, hf⟩ := h
  obtain ⟨hr', f', hf'⟩ := h'
  have hu := fun fuel => resolveType_untag tree here n fuel t
  rcases untag_cases t with ⟨m1, ref, ps, hd⟩ | hd
  · rw [(hu _).1 _ _ _ hd] at hf hf'
    have h1 := resolveDefined_mono_le hf hr (Nat.le_max_left f f')
    have h2 := resolveDefined_mono_le hf' hr' (Nat.le_max_right f f')
    exact h1.symm.trans h2
  · rw [(hu _).2 hd] at hf hf'
    exact hf.symm.trans hf'

/-- C63 (part), errors: under the same condition a call ends with an exception exactly when the type
stands for nothing and the chain of references is not endless, that is when the chain arrives at a name
that is not defined as a type. -/
theorem C63_error_partial (tree : Tree) (here n : Name) (t : AType) (hloc : TaggedRefsLocal tree here) :
    (∃ e, ResolveResult tree here n t (.throw e)) ↔
      ¬ (∃ n' t' mod', TypeStandsFor tree here n t n' t' mod') ∧ ¬ TypeEndless tree here t := by
  constructor
  · rintro ⟨e, he⟩
    refine ⟨?_, ?_⟩
    · rintro ⟨n', t', mod', h⟩
      obtain ⟨m, hm, _⟩ := (C63_result_partial tree here n t hloc n' t' mod').2 h
      cases C63_deterministic _ _ _ _ _ _ he hm
    · intro h
      obtain ⟨hr, f, hf⟩ := he
      rw [(C63_terminates_partial tree here n t hloc).2 h f] at hf
      cases hf
  · rintro ⟨h1, h2⟩
    have h2 := fun h => h2 ((C63_terminates_partial tree here n t hloc).1 h)
    obtain ⟨f, hf⟩ := Classical.not_forall.1 h2
    have noUb : ∀ fuel module m ref, resolveDefined tree here fuel module m ref ≠ .ub := by
      intro fuel
      induction fuel with
      | zero => intro _ _ _ h; rw [resolveDefined] at h; cases h
      | succ fuel ih =>
        intro module m ref h
        rcases resolveDefined_step tree here fuel module m ref with ⟨e, he, _⟩ | ⟨m', r', ps, _, he⟩ |
          ⟨c, n, k, m', r', ps, _, he⟩ | ⟨t, wm, _, _, he, _⟩
        · rw [he] at h; cases h
        · rw [he] at h; exact ih _ _ _ h
        · rw [he] at h
          rcases Res.bind_eq_ub.1 h with h | ⟨_, _, h⟩
          · exact ih _ _ _ h
          · cases h
        · rw [he] at h; cases h
    cases hr : resolveType tree here f n t with
    | loop => exact absurd hr hf
    | throw e => exact ⟨e, by simp, f, hr⟩
    | ok x => exact absurd ⟨_, _, _, (C63_result_partial tree here n t hloc x.name x.type _).1 ⟨x.module, ⟨by simp, f, hr⟩, rfl⟩⟩ h1
    | ub =>
      exfalso
      have hu := resolveType_untag tree here n f t
      rcases untag_cases t with ⟨m1, ref, ps, hd⟩ | hd
      · rw [hu.1 _ _ _ hd] at hr; exact noUb _ _ _ _ hr
      · rw [hu.2 hd] at hr
        rcases findModule_cases tree here with ⟨m, hm⟩ | ⟨e, hm⟩ <;> (rw [hm] at hr; cases hr)

/-- `A ::= [1] M2.B`, `B ::= C`, `C ::= INTEGER`: a tree that meets the condition, in which `A` stands for a
tagged INTEGER. -/
def chainTree : Tree := ⟨[⟨"M1", .explicit_, [], [⟨"A", .type (.prefixed .contextSpecific 1 .automatic (.defined (some "M2") "B" [])), []⟩]⟩,
  ⟨"M2", .explicit_, [], [⟨"B", .type (.defined none "C" []), []⟩, ⟨"C", .type (.leaf .integer), []⟩]⟩]⟩

example : TaggedRefsLocal chainTree "M1" ∧ TypeStandsFor chainTree "M1" "x" (.defined none "A" [])
    "A" (.prefixed .contextSpecific 1 .automatic (.leaf .integer)) "M2" := by
  refine ⟨?_, ?_⟩
  · intro m hm a ha c n k r ps h
    simp only [chainTree, List.mem_cons, List.not_mem_nil, or_false] at hm
    rcases hm with rfl | rfl
    · rfl
    · simp only [List.mem_cons, List.not_mem_nil, or_false] at ha
      rcases ha with rfl | rfl <;> simp at h
  · refine .reference (m := none) (ref := "A") (ps := []) (by rw [untag]; simp) ?_
    refine .tagged (m := some "M2") (r := "B") (ps := []) (n := "C") (by simp [lookup, chainTree]) ?_
    refine .alias (m := none) (r := "C") (ps := []) (by simp [lookup, chainTree]) ?_
    refine .here (by simp [lookup, chainTree]) ?_
    intro m r h; cases h

end FastBer.Props
