import Verif.Proofs.ConstantsAll
import Verif.Model.Emit
/-!
# C97: the constants of a schema
-/
namespace FastBer.Props
open FastBer Ast Ast.Spec Constants

/-- A value has one meaning. -/
theorem C97_unique {tree : Tree} {printed : UInt64 → UInt64} (hc : Constants.Spec.Constants tree printed) {mod : Name} {t : AType} {v : Value} {c c' : Const}
    (h : Constants.Spec.Denotes tree mod t v c) (h' : Constants.Spec.Denotes tree mod t v c') : c = c' := denotes_unique hc h h'

/-- **C97 (value assignments).** The compiler accepts the values of the modules, the C++ compiler accepts the constants written for them, and the constant of an assigned or imported value has the
value of X.680.  Missing, because it is false: the values excluded by `Constants` (`C97_violated_*`). -/
theorem C97_values_partial {tree : Tree} {ar : Name → Around} (hc : ∀ n, Constants.Spec.Constants tree (ar n).printed) :
    ∃ f0, ∀ f, f0 ≤ f → ∃ ss, allConstants tree f ar tree.modules [] = .ok (some ss) ∧
      (∀ m ∈ tree.modules, ∀ a ∈ m.assignments, ∀ t v, a.body = .value t v → ∃ e c, ss.find m.name a.name = some e ∧ Constants.Spec.Denotes tree m.name t v c ∧ e.value = c) ∧
      ∀ m ∈ tree.modules, ∀ i ∈ m.imports, ∀ n ∈ i.values, ∃ e mod t v c, ss.find m.name n = some e ∧ Constants.Spec.Assigns tree i.module n mod t v ∧
        Constants.Spec.Denotes tree mod t v c ∧ e.value = c := by
  obtain ⟨f0, h⟩ := all_constants hc tree.modules [] rfl
  refine ⟨f0, fun f hf => ?_⟩
  obtain ⟨ss, h1, h2⟩ := h f hf [] ⟨rfl, by simp⟩
  refine ⟨ss, h1, fun m hm a ha t v hb => ?_, fun m hm i hi n hn => ?_⟩
  · have hc := hc m.name
    obtain ⟨env, hr, hf⟩ := find_space h2 hc.modules hm
    obtain ⟨e, he, hne, hfe⟩ := hf a.name (List.mem_append_right _ (mem_assignedValues.2 ⟨a, ha, rfl, t, v, hb⟩))
    obtain ⟨mod', t', v', k, n, g1, g2, g3, g4, g5⟩ := hr.good e he
    have hl := lookup_of_mem hc.modules hm (hc.names m hm) ha
    rw [hb] at hl
    rw [hne] at g1
    obtain ⟨rfl, rfl, rfl⟩ := assigns_unique hc g1 (.here hl)
    exact ⟨e, e.value, hfe, g4, rfl⟩
  · have hc := hc m.name
    have hin : n ∈ Constants.Spec.importedValues m := List.mem_flatMap.2 ⟨i, hi, hn⟩
    obtain ⟨env, hr, hf⟩ := find_space h2 hc.modules hm
    obtain ⟨e, he, hne, hfe⟩ := hf n (List.mem_append_left _ hin)
    obtain ⟨mod', t', v', k, n', g1, g2, g3, g4, g5⟩ := hr.good e he
    refine ⟨e, mod', t', v', e.value, hfe, ?_, g4, rfl⟩
    rw [hne] at g1
    generalize hm' : m.name = mn at g1
    cases g1 with
    | here hl =>
      subst hm'
      obtain ⟨m', k1, k2, a, k3, k4, k5⟩ := lookup_value hl
      obtain rfl := name_unique hc.modules k1 hm k2
      exact absurd rfl ((List.nodup_append.1 (hc.values _ hm)).2.2 n hin n (mem_assignedValues.2 ⟨a, k3, k4, _, _, k5⟩))
    | imported hm2 hi2 hr2 h2 =>
      have e2 := List.mem_of_find?_eq_some hm2
      obtain rfl := name_unique hc.modules hm e2 hm'
      obtain rfl := flatMap_unique (List.nodup_append.1 (hc.values _ hm)).1 hi hi2 hn hr2
      exact h2

/-- **C97 (DEFAULT).** The value written after DEFAULT for a component of a simple type, if it is one that is kept, is what the function of the `DefaultValue` struct returns. -/
theorem C97_default_partial {tree : Tree} {ar : Around} {mod : Module} (hm : tree.modules.find? (·.name == mod.name) = some mod) {name n : Name} {t : AType} {k : Builtin} {v : Value}
    (hs : Constants.Spec.Simple tree name mod.name t k n) (hv : Constants.Spec.Kept ar.printed k v) :
    ∃ c, Constants.Spec.Denotes tree mod.name t v c ∧ ∃ f0, ∀ f, f0 ≤ f → ∃ d, createDefault tree f mod name t v = .ok d ∧ ∀ env, eval ar env d.type d.expr = .value c := by
  obtain ⟨c, h1, h2⟩ := kept_value (ar := ar) hv
  obtain ⟨n', hs'⟩ := simple_any hs ""
  obtain ⟨f1, hf1⟩ := simple_valueType hs
  obtain ⟨f2, hf2⟩ := simple_resolveType ⟨mod, by unfold findModule; rw [hm]⟩ hs
  refine ⟨c, h1 _ _ _ _ hs', f1 + f2, fun f hf => ⟨⟨name, leafType n k, exprOf v⟩, ?_, fun env => h2 env n⟩⟩
  obtain ⟨wm, hw⟩ := hf2 f (by omega)
  unfold createDefault
  rw [hf1 f (by omega), Res.ok_bind, hw, Res.ok_bind, kept_text hv n (.leaf k) (.inl rfl)]
  rfl

/-- **C97 (DEFAULT by name).** A DEFAULT that is the name of a value of the type assigned in the module. -/
theorem C97_default_reference_partial {tree : Tree} {ar : Around} {mod : Module} (hm : tree.modules.find? (·.name == mod.name) = some mod) {name n ref : Name} {t : AType} {k : Builtin}
    (hs : Constants.Spec.Simple tree name mod.name t k n) (hk : k ≠ .enumerated ∧ k ≠ .objectIdentifier ∧ k ≠ .bitString) {env : List Entry} {e : Entry} (he : env.find? (·.name == ref) = some e)
    (hu : e.usable = true) (ht : e.type = leafType n k) :
    ∃ f0, ∀ f, f0 ≤ f → ∃ d, createDefault tree f mod name t (.defined ref) = .ok d ∧ eval ar env d.type d.expr = .value e.value := by
  obtain ⟨f1, hf1⟩ := simple_valueType hs
  obtain ⟨f2, hf2⟩ := simple_resolveType ⟨mod, by unfold findModule; rw [hm]⟩ hs
  refine ⟨f1 + f2, fun f hf => ⟨⟨name, leafType n k, .name ref⟩, ?_, ?_⟩⟩
  · obtain ⟨wm, hw⟩ := hf2 f (by omega)
    unfold createDefault
    rw [hf1 f (by omega), Res.ok_bind, hw, Res.ok_bind, ref_text n ref hk.1 hk.2.1 hk.2.2 (.leaf k) (.inl rfl)]
    rfl
  · simp [eval, he, hu, ht]

/-- **C97 (DEFAULT of an assigned ENUMERATED type).** An item written after DEFAULT for a component whose type is a reference to an assignment `n` of an ENUMERATED type has the number of the item in the
C++ enumeration `nValues` (for these numbers see C95). -/
theorem C97_default_item {tree : Tree} {ar : Around} {mod : Module} {name n item : Name} {m : Option Name} {ref : Name} {ps : List AType}
    (hs : Constants.Spec.Simple tree name mod.name (.defined m ref ps) .enumerated n) {items : List (Name × Int)} (he : ar.enums n = some items)
    (hn : (items.map (·.1)).Nodup) {i : Int} (hi : (item, i) ∈ items) :
    ∃ f0, ∀ f, f0 ≤ f → ∃ d, createDefault tree f mod name (.defined m ref ps) (.defined item) = .ok d ∧ ∀ env, eval ar env d.type d.expr = .value (.item n i) := by
  obtain ⟨f1, hf1⟩ := simple_valueType hs
  rcases simple_resolve hs with ⟨h, _⟩ | ⟨m', ref', ps', h, f2, hf2⟩
  · cases h
  cases h
  refine ⟨f1 + f2, fun f hf => ⟨⟨name, .values n, .item n item⟩, ?_, fun env => ?_⟩⟩
  · obtain ⟨wm, hw⟩ := hf2 f (by omega) mod.name
    unfold createDefault
    rw [hf1 f (by omega), Res.ok_bind]
    show (resolveDefined tree mod.name f mod.name m ref >>= _) = _
    rw [hw]
    rfl
  · have := find_of_nodup (·.1) hn hi
    simp [eval, he, this]

/-! ## Values the compiler does not keep -/

/-- **C97, violated.** TRUE and FALSE, which the parser reads as an empty list (`C92_violated_boolean_value`), are refused for every name: no schema with a truth value or with `BOOLEAN DEFAULT TRUE` is
accepted. -/
theorem C97_violated_boolean (tree : Tree) (mod : Module) (f : Nat) (name : Name) :
    createConstant tree (f + 1) mod name (.leaf .boolean) (.list []) = .throw .other ∧
    (mod ∈ tree.modules → createDefault tree (f + 1) mod name (.leaf .boolean) (.list []) = .throw .other) := by
  refine ⟨rfl, fun hm => ?_⟩
  have : ∃ m, findModule tree mod.name = .ok m := by
    unfold findModule
    cases h : tree.modules.find? (·.name == mod.name) with
    | none => exact absurd (List.find?_eq_none.1 h mod hm) (by simp)
    | some m => exact ⟨m, rfl⟩
  obtain ⟨m, hm⟩ := this
  unfold createDefault
  show (resolveType tree mod.name (f + 1) name (.leaf .boolean) >>= _) = _
  simp [resolveType, hm, Res.ok_bind]
  rfl

/-- **C97, violated.** A constant of BIT STRING type is empty whatever its value. -/
theorem C97_violated_bits (tree : Tree) (mod : Module) (f : Nat) (name : Name) (v : Value) (ar : Around) (env : List Entry) :
    ∃ d, createConstant tree (f + 1) mod name (.leaf .bitString) v = .ok d ∧ eval ar env d.type d.expr = .value (.octets []) := by
  refine ⟨⟨name, .view, .empty⟩, ?_, rfl⟩
  unfold createConstant assignedTo
  cases v <;> rfl

/-- **C97, violated.** `{ iso 2 }` (1.2) becomes 0.2: names of arcs are read as 0. -/
theorem C97_violated_arc (tree : Tree) (mod : Module) (f : Nat) (name : Name) (ar : Around) (env : List Entry) :
    (∃ d, createConstant tree (f + 1) mod name (.leaf .objectIdentifier) (.list [.defined "iso", .int 2]) = .ok d ∧ eval ar env d.type d.expr = .value (.oid [0, 2])) ∧
    Constants.Spec.Denotes tree mod.name (.leaf .objectIdentifier) (.list [.defined "iso", .int 2]) (.oid [1, 2]) :=
  ⟨⟨_, rfl, rfl⟩, .oid .here (.root (by decide) (.cons (.number 2) .nil))⟩

/-- **C97, violated.** The value of an object identifier that is the name of another is written as nothing at all, which C++ rejects. -/
theorem C97_violated_oid_reference (tree : Tree) (mod : Module) (f : Nat) (name ref : Name) (ar : Around) (env : List Entry) :
    ∃ d, createConstant tree (f + 1) mod name (.leaf .objectIdentifier) (.defined ref) = .ok d ∧ eval ar env d.type d.expr = .error := ⟨_, rfl, rfl⟩

/-- **C97, violated.** `U ::= OBJECT IDENTIFIER`, `T ::= U`, `v T ::= { 1 2 }` is refused. -/
theorem C97_violated_oid_alias (f : Nat) :
    let mod : Module := ⟨"M", .explicit_, [], [⟨"U", .type (.leaf .objectIdentifier), []⟩, ⟨"T", .type (.defined none "U" []), []⟩]⟩
    createConstant ⟨[mod]⟩ (f + 4) mod "v" (.defined none "T" []) (.list [.int 1, .int 2]) = .throw .other := rfl

/-- **C97, violated.** `v E ::= red` for an ENUMERATED type is written with the enumeration `vValues`, which does not exist. -/
theorem C97_violated_enumerated (f : Nat) (name item : Name) (ar : Around) (h : ar.enums name = none) (env : List Entry) :
    let mod : Module := ⟨"M", .explicit_, [], [⟨"E", .type (.leaf .enumerated), []⟩]⟩
    ∃ d, createConstant ⟨[mod]⟩ (f + 2) mod name (.defined none "E" []) (.defined item) = .ok d ∧ d.type = .values "E" ∧ eval ar env d.type d.expr = .error := by
  refine ⟨_, rfl, rfl, ?_⟩
  show (match ar.enums name with | none => Init.error | some items => _) = _
  rw [h]

/-- **C97, violated.** `c ENUMERATED { a, b } DEFAULT a`: the enumeration is called `CValues` (`makeTypeName`), the DEFAULT is written with `cValues`. -/
theorem C97_violated_inline (f : Nat) (item : Name) (ar : Around) (h : ar.enums "c" = none) (env : List Entry) :
    let mod : Module := ⟨"M", .explicit_, [], []⟩
    makeTypeName "c" = "C" ∧ ∃ d, createDefault ⟨[mod]⟩ (f + 2) mod "c" (.leaf .enumerated) (.defined item) = .ok d ∧ d.type = .values "c" ∧ eval ar env d.type d.expr = .error := by
  refine ⟨by decide +kernel, _, rfl, rfl, ?_⟩
  show (match ar.enums "c" with | none => Init.error | some items => _) = _
  rw [h]

/-- **C97, violated.** A value of a SET OF type makes the compiler follow a null pointer. -/
theorem C97_violated_set_of (tree : Tree) (mod : Module) (f : Nat) (name : Name) (t : AType) (s : Storage) (v : Value) :
    createConstant tree (f + 1) mod name (.setOf none t s) v = .ub := rfl

/-- **C97, violated.** A string constant that is imported cannot be the value of another: `static const auto` is no constant expression. -/
theorem C97_violated_imported (tree : Tree) (mod : Module) (f : Nat) (name ref : Name) (ar : Around) (l : List Nat) :
    let e : Entry := imported ⟨ref, .view, .octets l, true⟩
    ∃ d, createConstant tree (f + 1) mod name (.leaf .octetString) (.defined ref) = .ok d ∧ eval ar [e] d.type d.expr = .error :=
  ⟨⟨name, .view, .name ref⟩, rfl, by simp [eval, imported]⟩

/-! ## Modules that meet the conditions -/

/-- `M DEFINITIONS ::= BEGIN T ::= INTEGER a T ::= 5 b INTEGER ::= a s OCTET STRING ::= '0107'H o OBJECT IDENTIFIER ::= { 1 dod(6) } END` and
`N DEFINITIONS ::= BEGIN IMPORTS a FROM M; c INTEGER ::= a END` -/
def constantTree : Tree :=
  ⟨[⟨"M", .explicit_, [], [⟨"T", .type (.leaf .integer), []⟩, ⟨"a", .value (.defined none "T" []) (.int 5), []⟩, ⟨"b", .value (.leaf .integer) (.defined "a"), []⟩,
      ⟨"s", .value (.leaf .octetString) (.hex "0107"), []⟩, ⟨"o", .value (.leaf .objectIdentifier) (.list [.int 1, .namedNumber "dod" 6]), []⟩]⟩,
    ⟨"N", .explicit_, [⟨"M", [], ["a"]⟩], [⟨"c", .value (.leaf .integer) (.defined "a"), []⟩]⟩]⟩

theorem constantTree_a {mod' : Name} {t' : AType} {v' : Value} : ∀ {m : Name}, m = "M" ∨ m = "N" → Constants.Spec.Assigns constantTree m "a" mod' t' v' →
    ∃ n', Constants.Spec.Simple constantTree "" mod' t' .integer n' := by
  intro m hm h
  generalize hr : "a" = r at h
  induction h with
  | here hl =>
    subst hr
    rcases hm with rfl | rfl
    · have : lookup constantTree "M" "a" = some (.value (.defined none "T" []) (.int 5)) := rfl
      rw [this] at hl
      cases hl
      exact ⟨_, .reference (t := .leaf .integer) rfl .here⟩
    · cases hl
  | imported hf hi _ _ ih =>
    refine ih ?_ hr
    have := List.mem_of_find?_eq_some hf
    simp only [constantTree, List.mem_cons, List.not_mem_nil, or_false] at this
    rcases this with rfl | rfl
    · cases hi
    · simp only [List.mem_cons, List.not_mem_nil, or_false] at hi
      subst hi
      exact .inl rfl

theorem constantTree_ok (printed : UInt64 → UInt64) : Constants.Spec.Constants constantTree printed where
  modules := by decide +kernel
  names := by decide +kernel
  values := by decide +kernel
  imports := by
    intro before m after h i hi n hn
    match before, h with
    | [], h => cases h; cases hi
    | [_], h =>
      cases h
      simp only [List.mem_cons, List.not_mem_nil, or_false] at hi
      subst hi
      exact ⟨_, List.mem_cons_self, rfl, by simp only [List.mem_cons, List.not_mem_nil, or_false] at hn; subst hn; decide +kernel⟩
    | _ :: _ :: before, h => simp [constantTree] at h
  assigned := by
    intro m hm pre a post hp t v hb
    simp only [constantTree, List.mem_cons, List.not_mem_nil, or_false] at hm
    rcases hm with rfl | rfl
    · match pre, hp with
      | [], hp => cases hp; cases hb
      | [_], hp =>
        cases hp; cases hb
        exact ⟨.integer, _, .reference (t := .leaf .integer) rfl .here, by simp, .inl ⟨by decide, by decide⟩⟩
      | [_, _], hp =>
        cases hp; cases hb
        exact ⟨.integer, _, .here, by simp, .inr ⟨"a", rfl, by simp, by simp, by simp, .inr ⟨_, List.mem_cons_of_mem _ List.mem_cons_self, rfl, _, _, rfl⟩, fun _ _ _ => constantTree_a (.inl rfl)⟩⟩
      | [_, _, _], hp =>
        cases hp; cases hb
        exact ⟨.octetString, _, .here, by simp, .inl ⟨by decide +kernel, by decide +kernel, by decide +kernel⟩⟩
      | [_, _, _, _], hp =>
        cases hp; cases hb
        exact ⟨.objectIdentifier, _, .here, fun _ => .inl rfl, .inl (by intro v hv; simp only [List.mem_cons, List.not_mem_nil, or_false] at hv; rcases hv with rfl | rfl <;> simp)⟩
      | _ :: _ :: _ :: _ :: _ :: pre, hp => simp at hp
    · match pre, hp with
      | [], hp =>
        cases hp; cases hb
        exact ⟨.integer, _, .here, by simp, .inr ⟨"a", rfl, by simp, by simp, by simp, .inl ⟨by decide +kernel, rfl⟩, fun _ _ _ => constantTree_a (.inr rfl)⟩⟩
      | _ :: pre, hp => simp at hp

example : ∃ ss, allConstants constantTree 4 (fun _ => ⟨fun _ => none, id⟩) constantTree.modules [] = .ok (some ss) ∧ (ss.find "N" "c").map (·.value) = some (.int 5) ∧
    (ss.find "M" "s").map (·.value) = some (.octets [1, 7]) := by
  refine ⟨_, rfl, by decide +kernel, by decide +kernel⟩

end FastBer.Props
