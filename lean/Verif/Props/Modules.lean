import Verif.Proofs.Modules
/-!
# C55, C56: module level passes of the compiler
-/
namespace FastBer.Props
open FastBer.Ast

/-! ## Vocabulary -/

/-- The names of a list of modules are pairwise different. -/
def DistinctModules (ms : List Module) : Prop := (ms.map (·.name)).Nodup

/-- Module `m` has an IMPORTS clause naming module `n`. -/
def ImportsFrom (m : Module) (n : Name) : Prop := ∃ i ∈ m.imports, i.module = n

/-- Every module named in an IMPORTS clause is among the input modules. -/
def ImportsDefined (ms : List Module) : Prop := ∀ m ∈ ms, ∀ n, ImportsFrom m n → ∃ m' ∈ ms, m'.name = n

/-- Module name `a` imports module name `b`. -/
def importRelation (ms : List Module) (a b : Name) : Prop := ∃ m ∈ ms, m.name = a ∧ ImportsFrom m b

/-- Some module imports itself, directly or through others. -/
def CyclicImports (ms : List Module) : Prop := ∃ n, Relation.TransGen (importRelation ms) n n

/-- Every module of `out` stands behind all the modules it imports. -/
def ImportedBefore (out : List Module) : Prop :=
  ∀ before m after, out = before ++ m :: after → ∀ n, ImportsFrom m n → ∃ m' ∈ before, m'.name = n

private theorem rel_edge {ms : List Module} (hn : DistinctModules ms) {a b : Name} :
    importRelation ms a b ↔ ImportEdge ms a b := by
  constructor
  · rintro ⟨m, hm, rfl, hi⟩
    obtain ⟨m', hf⟩ := findLast_isSome (List.mem_map.mpr ⟨m, hm, rfl⟩)
    obtain ⟨h1, h2⟩ := findLast_some hf
    have : m' = m := by
      unfold DistinctModules at hn
      rw [List.Nodup, List.pairwise_map] at hn
      clear hf hi
      induction ms with
      | nil => cases hm
      | cons x xs ih =>
        obtain ⟨hx, hxs⟩ := List.pairwise_cons.mp hn
        rcases List.mem_cons.mp hm with e | hm' <;> rcases List.mem_cons.mp h1 with e' | h1'
        · rw [e, e']
        · subst e; exact absurd h2.symm (hx _ h1')
        · subst e'; exact absurd h2 (hx _ hm')
        · exact ih hxs hm' h1'
    subst this
    exact ⟨m', hf, hi⟩
  · rintro ⟨m, hf, hi⟩
    obtain ⟨h1, h2⟩ := findLast_some hf
    exact ⟨m, h1, h2, hi⟩

private theorem gen_edge {ms : List Module} (hn : DistinctModules ms) {a b : Name} :
    Relation.TransGen (importRelation ms) a b ↔ Relation.TransGen (ImportEdge ms) a b := by
  constructor
  · intro h
    induction h with
    | single h => exact .single ((rel_edge hn).mp h)
    | tail _ h ih => exact .tail ih ((rel_edge hn).mp h)
  · intro h
    induction h with
    | single h => exact .single ((rel_edge hn).mpr h)
    | tail _ h ih => exact .tail ih ((rel_edge hn).mpr h)

/-- **C55 (partial).** For modules with different names: whenever `reorder_modules` returns, it returns a
permutation of its input in which every module comes after all the modules it imports.  Missing: the
claim fails when two modules have the same name (`C55_violated`). -/
theorem C55_order_partial (ms out : List Module) (hn : DistinctModules ms)
    (h : reorderModules ms = .ok out) : out.Perm ms ∧ ImportedBefore out := by
  obtain ⟨h1, h2⟩ := reorderModules_ok hn h
  refine ⟨h1, ?_⟩
  intro p m q e n hi
  have := h2 p m q e n hi
  simpa using this

/-- **C55 (partial).** For modules with different names whose imports all exist: `reorder_modules`
returns exactly when no module imports itself directly or through others, and otherwise throws. -/
theorem C55_cycles_partial (ms : List Module) (hn : DistinctModules ms) (hd : ImportsDefined ms) :
    ((∃ out, reorderModules ms = .ok out) ↔ ¬ CyclicImports ms) ∧
    ((∃ e, reorderModules ms = .throw e) ↔ CyclicImports ms) := by
  have hd' : ∀ m ∈ ms, ∀ n, Imports m n → n ∈ ms.map (·.name) := by
    intro m hm n hi
    obtain ⟨m', h1, h2⟩ := hd m hm n hi
    exact List.mem_map.mpr ⟨m', h1, h2⟩
  have iff1 : (∃ out, reorderModules ms = .ok out) ↔ ¬ CyclicImports ms := by
    constructor
    · rintro ⟨out, h⟩ ⟨n, hc⟩
      obtain ⟨h1, h2⟩ := reorderModules_ok hn h
      exact acyclic_of_importsFirst hn h1 h2 n ((gen_edge hn).mp hc)
    · intro h
      exact reorderModules_acyclic hn hd' (fun n hc => h ⟨n, (gen_edge hn).mpr hc⟩)
  refine ⟨iff1, ?_⟩
  have hub := reorderModules_no_ub ms hd'
  have hlp := reorderModules_no_loop ms
  constructor
  · rintro ⟨e, h⟩
    apply Classical.byContradiction
    intro hc
    obtain ⟨out, h'⟩ := iff1.mpr hc
    rw [h] at h'; cases h'
  · intro hc
    rcases h : reorderModules ms with out | e | _ | _
    · exact absurd hc (iff1.mp ⟨out, h⟩)
    · exact ⟨e, rfl⟩
    · exact absurd h hub
    · exact absurd h hlp

/-- **C55.** Reordering terminates on every import graph. -/
theorem C55_terminates (ms : List Module) : reorderModules ms ≠ .loop := reorderModules_no_loop ms

/-- Modules A and B importing from each other, with B given twice. -/
def twiceB : List Module :=
  [⟨"A", .explicit_, [⟨"B", ["Y"], []⟩], []⟩,
   ⟨"B", .explicit_, [⟨"A", ["X"], []⟩], []⟩,
   ⟨"B", .explicit_, [⟨"A", ["X"], []⟩], []⟩]

/-- **C55 is violated** for repeated module names: A and B import from each other, yet the pass
returns, with A twice, and with B in front of no A. -/
theorem C55_violated : CyclicImports twiceB ∧
    ∃ out, reorderModules twiceB = .ok out ∧ out.map (·.name) = ["A", "B", "A"] ∧ ¬ out.Perm twiceB := by
  refine ⟨⟨"A", .tail (.single (b := "B") ?_) ?_⟩, ?_⟩
  · exact ⟨_, List.mem_cons_self, rfl, ⟨"B", ["Y"], []⟩, by simp, rfl⟩
  · exact ⟨_, List.mem_cons_of_mem _ List.mem_cons_self, rfl, ⟨"A", ["X"], []⟩, by simp, rfl⟩
  · refine ⟨[⟨"A", .explicit_, [⟨"B", ["Y"], []⟩], []⟩, ⟨"B", .explicit_, [⟨"A", ["X"], []⟩], []⟩,
      ⟨"A", .explicit_, [⟨"B", ["Y"], []⟩], []⟩], by rfl, rfl, ?_⟩
    intro h
    have := (h.map (·.name)).count_eq "A"
    revert this
    decide

/-- Three modules, the first importing from the other two: hypotheses met, and the order changes. -/
def threeModules : List Module :=
  [⟨"A", .explicit_, [⟨"B", ["Y"], []⟩, ⟨"C", ["Z"], []⟩], []⟩,
   ⟨"B", .implicit, [⟨"C", ["Z"], []⟩], []⟩,
   ⟨"C", .automatic, [], []⟩]

example : DistinctModules threeModules := by unfold DistinctModules; decide
example : ImportsDefined threeModules := by
  intro m hm n ⟨i, hi, e⟩
  simp [threeModules] at hm
  rcases hm with rfl | rfl | rfl <;> simp at hi <;> (try rcases hi with rfl | rfl) <;> (try subst hi) <;>
    subst e <;> simp [threeModules]
example : ∃ out, reorderModules threeModules = .ok out ∧ out.map (·.name) = ["C", "B", "A"] :=
  ⟨_, rfl, rfl⟩
/-- and a cycle of distinct modules is refused -/
example : reorderModules (twiceB.take 2) = .throw .lostDefinitions := by rfl

/-- **C56.** `check_duplicated_names` returns normally exactly when no two assignments of the module
have the same name, and throws exactly when two do. -/
theorem C56_duplicates (as : List Assignment) :
    (checkDuplicatedNames as = .ok () ↔
      ∀ i j (hi : i < as.length) (hj : j < as.length), i ≠ j → as[i].name ≠ as[j].name) ∧
    (checkDuplicatedNames as = .throw .duplicateName ↔
      ∃ i j, ∃ (hi : i < as.length) (hj : j < as.length), i ≠ j ∧ as[i].name = as[j].name) := by
  have h1 : checkDuplicatedNames as = .ok () ↔
      ∀ i j (hi : i < as.length) (hj : j < as.length), i ≠ j → as[i].name ≠ as[j].name := by
    unfold checkDuplicatedNames
    rw [checkDuplicatedFrom_ok]
    simp only [List.not_mem_nil, not_false_eq_true, implies_true, and_true]
    rw [List.Nodup, List.pairwise_map, List.pairwise_iff_getElem]
    constructor
    · intro h i j hi hj hne
      rcases Nat.lt_or_gt_of_ne hne with hl | hl
      · exact h i j hi hj hl
      · exact (h j i hj hi hl).symm
    · intro h i j hi hj hl
      exact h i j hi hj (by omega)
  refine ⟨h1, ?_⟩
  constructor
  · intro h
    apply Classical.byContradiction
    intro hc
    have : checkDuplicatedNames as = .ok () := h1.mpr (fun i j hi hj hne e => hc ⟨i, j, hi, hj, hne, e⟩)
    rw [h] at this; cases this
  · rintro ⟨i, j, hi, hj, hne, e⟩
    rcases checkDuplicatedFrom_cases as [] with h | h
    · exact absurd e (h1.mp h i j hi hj hne)
    · exact h

example : checkDuplicatedNames [⟨"A", .objectSet, []⟩, ⟨"b", .objectSet, []⟩, ⟨"A", .type (.leaf .null), []⟩] =
    .throw .duplicateName := by rfl
example : checkDuplicatedNames [⟨"A", .objectSet, []⟩, ⟨"b", .objectSet, []⟩] = .ok () := by rfl

end FastBer.Props
