import Verif.Proofs.Constants
/-! # Constants of all modules -/
namespace FastBer.Constants
open FastBer Ast Ast.Spec Constants.Spec

theorem nodup_append_left {α} {a b : List α} (h : (a ++ b).Nodup) : a.Nodup := (List.nodup_append.1 h).1

theorem find_of_nodup {α} (f : α → Name) : ∀ {l : List α} {a : α}, (l.map f).Nodup → a ∈ l → l.find? (fun x => f x == f a) = some a
  | b :: l, a, h, ha => by
    rw [List.find?_cons]
    rw [List.map_cons, List.nodup_cons] at h
    rcases List.mem_cons.1 ha with rfl | ha
    · simp
    · have : f b ≠ f a := fun e => h.1 (e ▸ List.mem_map_of_mem ha)
      have hb : (f b == f a) = false := by simpa using this
      rw [hb]
      exact find_of_nodup f h.2 ha

theorem lookup_of_mem {tree : Tree} (h1 : (tree.modules.map (·.name)).Nodup) {m : Module} (hm : m ∈ tree.modules) (h2 : (m.assignments.map (·.name)).Nodup) {a : Assignment}
    (ha : a ∈ m.assignments) : lookup tree m.name a.name = some a.body := by
  unfold lookup
  rw [find_of_nodup (·.name) h1 hm]
  show Option.map _ _ = _
  rw [find_of_nodup (·.name) h2 ha]
  rfl

theorem mem_assignedValues {m : Module} {n : Name} : n ∈ assignedValues m ↔ ∃ a ∈ m.assignments, a.name = n ∧ ∃ t v, a.body = .value t v := by
  unfold assignedValues
  rw [List.mem_filterMap]
  constructor
  · rintro ⟨a, ha, h⟩
    split at h
    · rename_i t v hb
      exact ⟨a, ha, by simpa using h, t, v, hb⟩
    · cases h
  · rintro ⟨a, ha, rfl, t, v, hb⟩
    exact ⟨a, ha, by simp only [hb]⟩

theorem lookup_value {tree : Tree} {mod ref : Name} {b : Body} (h : lookup tree mod ref = some b) : ∃ m ∈ tree.modules, m.name = mod ∧ ∃ a ∈ m.assignments, a.name = ref ∧ a.body = b := by
  obtain ⟨m, a, h1, h2, h3⟩ := lookup_some.1 h
  obtain ⟨_, h4, h5⟩ := findModule_ok h1
  obtain ⟨_, h6, h7⟩ := findAssignment_ok h2
  exact ⟨m, h5, h4, a, h7, h6, h3⟩

theorem name_unique {tree : Tree} (h : (tree.modules.map (·.name)).Nodup) {m m' : Module} (hm : m ∈ tree.modules) (hm' : m' ∈ tree.modules) (e : m.name = m'.name) : m = m' := by
  have h1 := find_of_nodup (·.name) h hm
  have h2 := find_of_nodup (·.name) h hm'
  rw [e, h2] at h1
  exact (Option.some.inj h1).symm

theorem flatMap_unique {α} {f : α → List Name} : ∀ {l : List α} {x y : α} {n : Name}, (l.flatMap f).Nodup → x ∈ l → y ∈ l → n ∈ f x → n ∈ f y → x = y
  | a :: l, x, y, n, h, hx, hy, h1, h2 => by
    classical
    rw [List.flatMap_cons, List.nodup_append] at h
    rcases List.mem_cons.1 hx with hx | hx <;> rcases List.mem_cons.1 hy with hy | hy
    · rw [hx, hy]
    · exact absurd rfl (h.2.2 n (hx ▸ h1) n (List.mem_flatMap.2 ⟨y, hy, h2⟩))
    · exact absurd rfl (h.2.2 n (hy ▸ h2) n (List.mem_flatMap.2 ⟨x, hx, h1⟩))
    · exact flatMap_unique h.2.1 hx hy h1 h2

theorem assigns_unique {tree : Tree} {printed : UInt64 → UInt64} (hc : Constants tree printed) {mod ref m1 m2 : Name} {t1 t2 : AType} {v1 v2 : Value}
    (h1 : Assigns tree mod ref m1 t1 v1) (h2 : Assigns tree mod ref m2 t2 v2) : m1 = m2 ∧ t1 = t2 ∧ v1 = v2 := by
  have clash : ∀ {m : Module} {i : Import} {ref : Name} {t : AType} {v : Value}, tree.modules.find? (·.name == m.name) = some m → i ∈ m.imports → ref ∈ i.values →
      lookup tree m.name ref = some (.value t v) → False := by
    intro m i ref t v hm hi hr hl
    have hm := List.mem_of_find?_eq_some hm
    obtain ⟨m', g1, g2, a, g3, g4, g5⟩ := lookup_value hl
    obtain rfl := name_unique hc.modules g1 hm g2
    exact (List.nodup_append.1 (hc.values _ hm)).2.2 ref (List.mem_flatMap.2 ⟨i, hi, hr⟩) ref (mem_assignedValues.2 ⟨a, g3, g4, t, v, g5⟩) rfl
  induction h1 with
  | here hl =>
    cases h2 with
    | here hl' =>
      rw [hl] at hl'
      cases hl'
      exact ⟨rfl, rfl, rfl⟩
    | imported hm hi hr _ => exact (clash hm hi hr hl).elim
  | @imported m i ref mod t v hm hi hr _ ih =>
    generalize hn : m.name = nn at h2
    cases h2 with
    | here hl => subst hn; exact (clash hm hi hr hl).elim
    | imported hm' hi' hr' h2 =>
      rename_i m' i'
      have e1 := List.mem_of_find?_eq_some hm
      have e2 := List.mem_of_find?_eq_some hm'
      obtain rfl := name_unique hc.modules e1 e2 hn
      obtain rfl := flatMap_unique (List.nodup_append.1 (hc.values _ e1)).1 hi hi' hr hr'
      exact ih h2

theorem denotes_simple {tree : Tree} {mod : Name} {t : AType} {v : Value} {c : Const} (h : Denotes tree mod t v c) : ∃ k n, Simple tree "" mod t k n := by
  cases h <;> exact ⟨_, _, ‹Simple _ _ _ _ _ _›⟩

theorem denotes_unique {tree : Tree} {printed : UInt64 → UInt64} (hc : Constants tree printed) {mod : Name} {t : AType} {v : Value} {c c' : Const}
    (h : Denotes tree mod t v c) (h' : Denotes tree mod t v c') : c = c' := by
  induction h generalizing c' with
  | int _ => cases h'; rfl
  | bool _ => cases h'; rfl
  | hex _ => cases h'; rfl
  | real _ => cases h'; rfl
  | chars _ hs =>
    generalize hv : Value.chars _ = v at h'
    cases h' with
    | chars _ hs' =>
      simp only [Value.chars.injEq] at hv
      have := congrArg String.toList hv
      simp only [String.toList_ofList, List.cons.injEq, true_and, List.append_left_inj] at this
      subst this
      rw [hs] at hs'
      cases hs'
      rfl
    | _ => cases hv
  | oid _ hs =>
    cases h' with
    | oid _ hs' => rw [oid_unique hs hs']
  | reference hs hk ha hs2 _ ih =>
    cases h' with
    | reference hs' hk' ha' hs2' h2 =>
      obtain ⟨rfl, rfl, rfl⟩ := assigns_unique hc ha ha'
      exact ih h2

/-- An entry of the namespace of the module has the value of the name. -/
def Good (tree : Tree) (mod : Name) (e : Entry) : Prop :=
  ∃ mod' t v k n, Assigns tree mod e.name mod' t v ∧ Simple tree "" mod' t k n ∧ k ≠ .enumerated ∧ Denotes tree mod' t v e.value ∧ e.type = leafType "" k

/-- What is known of the namespace of a module when all its imported and the names `done` of its assigned values have been declared. -/
structure Ready (tree : Tree) (m : Module) (done : List Name) (env : List Entry) : Prop where
  names : env.map (·.name) = importedValues m ++ done
  good : ∀ e ∈ env, Good tree m.name e
  usable : ∀ e ∈ env, e.name ∈ done → e.type ≠ .oid → e.usable = true
  integral : ∀ e ∈ env, e.type = .int64 ∨ e.type = .bool → e.usable = true

theorem leafType_any {k : Builtin} (h : k ≠ .enumerated) (n n' : Name) : leafType n k = leafType n' k := by
  cases k <;> first | rfl | contradiction

theorem leafType_oid {k : Builtin} {n : Name} (h : k ≠ .objectIdentifier) : leafType n k ≠ .oid := by
  cases k <;> first | contradiction | (intro h; cases h)

theorem leafType_integral {k : Builtin} {n : Name} (h : integral k = true) : leafType n k = .int64 ∨ leafType n k = .bool := by
  cases k <;> first | exact .inl rfl | exact .inr rfl | cases h

theorem kept_not_enumerated {printed : UInt64 → UInt64} {k : Builtin} {v : Value} (h : Kept printed k v) : k ≠ .enumerated ∧ ∀ r, v ≠ .defined r := by
  constructor
  · rintro rfl
    cases v <;> exact h
  · rintro r rfl
    cases k <;> exact h

theorem find_env {env : List Entry} {n : Name} (h : n ∈ env.map (·.name)) : ∃ e ∈ env, e.name = n ∧ env.find? (·.name == n) = some e := by
  cases hf : env.find? (·.name == n) with
  | none =>
    obtain ⟨e, he, rfl⟩ := List.mem_map.1 h
    exact absurd (List.find?_eq_none.1 hf e he) (by simp)
  | some e => exact ⟨e, List.mem_of_find?_eq_some hf, by simpa using List.find?_some hf, rfl⟩

/-- One assignment. -/
theorem constant_step {tree : Tree} {ar : Around} (hc : Constants tree ar.printed) {m : Module} (hm : m ∈ tree.modules) {pre post : List Assignment} {a : Assignment}
    (hp : m.assignments = pre ++ a :: post) {t : AType} {v : Value} (hb : a.body = .value t v) :
    ∃ f0, ∀ f, f0 ≤ f → ∃ d, createConstant tree f m a.name t v = .ok d ∧ d.name = a.name ∧
      ∀ env, Ready tree m (assignedValues { m with assignments := pre }) env → ∃ env', declare ar env d = some env' ∧
        Ready tree m (assignedValues { m with assignments := pre } ++ [a.name]) env' := by
  obtain ⟨k, n, hs, hk, hv⟩ := hc.assigned m hm pre a post hp t v hb
  have hl : lookup tree m.name a.name = some (.value t v) := by
    rw [lookup_of_mem hc.modules hm (hc.names m hm) (a := a) (by rw [hp]; simp), hb]
  obtain ⟨f0, hf⟩ := simple_valueType hs
  refine ⟨f0, fun f hf' => ?_⟩
  have hT := hf f hf'
  -- the type the text is written for
  have hu : ∃ u, assignedTo tree m t = .ok u ∧ (u = .leaf k ∨ k ≠ .objectIdentifier ∧ ∃ m ref ps, u = .defined m ref ps) := by
    cases hs with
    | here => exact ⟨_, rfl, .inl rfl⟩
    | reference hl2 h =>
      rename_i u
      obtain ⟨wm, b, h1, h2, h3⟩ := lookup_some.1 hl2
      refine ⟨u, ?_, ?_⟩
      · unfold assignedTo
        dsimp only
        rw [h1, Res.ok_bind, h2, Res.ok_bind, h3]
      · cases h with
        | here => exact .inl rfl
        | reference =>
          refine .inr ⟨fun e => ?_, _, _, _, rfl⟩
          rcases hk e with h | ⟨q', ref', ps', h, hl'⟩
          · cases h
          · cases h
            rw [hl2] at hl'
            cases hl'
  obtain ⟨u, hu1, hu2⟩ := hu
  -- the namespace afterwards
  have hnew : a.name ∉ importedValues m ++ assignedValues { m with assignments := pre } := by
    have hn := hc.values m hm
    have he : assignedValues m = assignedValues { m with assignments := pre } ++ (a.name :: assignedValues { m with assignments := post }) := by
      unfold assignedValues
      rw [hp, List.filterMap_append, List.filterMap_cons, hb]
    rw [he, ← List.append_assoc] at hn
    intro h
    exact (List.nodup_append.1 hn).2.2 _ h _ List.mem_cons_self rfl
  have hdone : ∀ (c : Const) (hne : k ≠ .enumerated), Denotes tree m.name t v c → ∀ env, Ready tree m (assignedValues { m with assignments := pre }) env →
      Ready tree m (assignedValues { m with assignments := pre } ++ [a.name]) (env ++ [⟨a.name, leafType n k, c, leafType n k ≠ .oid⟩]) := by
    intro c hne hd env hr
    refine ⟨?_, ?_, ?_, ?_⟩
    · rw [List.map_append, hr.names, List.append_assoc]
      rfl
    · intro e he
      rcases List.mem_append.1 he with he | he
      · exact hr.good e he
      · obtain rfl := List.mem_singleton.1 he
        exact ⟨m.name, t, v, k, n, .here hl, hs, hne, hd, leafType_any hne _ _⟩
    · intro e he hn hto
      rcases List.mem_append.1 he with he | he
      · rcases List.mem_append.1 hn with hn | hn
        · exact hr.usable e he hn hto
        · exact absurd (hr.names ▸ List.mem_map_of_mem (f := (·.name)) he) (List.mem_singleton.1 hn ▸ hnew)
      · obtain rfl := List.mem_singleton.1 he
        simpa using hto
    · intro e he hty
      rcases List.mem_append.1 he with he | he
      · exact hr.integral e he hty
      · obtain rfl := List.mem_singleton.1 he
        show decide _ = true
        rcases hty with hty | hty <;> (have hty : leafType n k = _ := hty; simp [hty])
  have hfree : ∀ env, Ready tree m (assignedValues { m with assignments := pre }) env → env.any (·.name == a.name) = false := by
    intro env hr
    rw [List.any_eq_false]
    intro e he h
    exact hnew (hr.names ▸ (by simpa using h : e.name = a.name) ▸ List.mem_map_of_mem (f := (·.name)) he)
  rcases hv with hv | ⟨ref, rfl, hk1, hk2, hk3, hw, ht⟩
  · refine ⟨⟨a.name, leafType n k, exprOf v⟩, ?_, rfl, fun env hr => ?_⟩
    · unfold createConstant
      rw [hu1, Res.ok_bind, hT, Res.ok_bind, kept_text hv a.name u hu2]
      rfl
    · obtain ⟨c, h1, h2⟩ := kept_value (ar := ar) hv
      refine ⟨_, ?_, hdone c (kept_not_enumerated hv).1 (h1 _ _ _ _ hs) env hr⟩
      unfold declare
      rw [hfree env hr, h2]
      rfl
  · refine ⟨⟨a.name, leafType n k, .name ref⟩, ?_, rfl, fun env hr => ?_⟩
    · unfold createConstant
      rw [hu1, Res.ok_bind, hT, Res.ok_bind, ref_text a.name ref hk1 hk2 hk3 u (hu2.imp_right (·.2))]
      rfl
    · have hin : ref ∈ env.map (·.name) := by
        rw [hr.names]
        rcases hw with ⟨h, _⟩ | ⟨b, hbm, rfl, u', x, hbb⟩
        · exact List.mem_append_left _ h
        · exact List.mem_append_right _ (mem_assignedValues.2 ⟨b, hbm, rfl, u', x, hbb⟩)
      obtain ⟨e, he, rfl, hfe⟩ := find_env hin
      obtain ⟨mod', t', v', k', n', g1, g2, g3, g4, g5⟩ := hr.good e he
      obtain ⟨n'', g6⟩ := ht mod' t' v' g1
      obtain ⟨rfl, rfl⟩ := simple_unique g6 g2
      have hty : e.type = leafType n k := g5.trans (leafType_any hk1 _ _)
      have huse : e.usable = true := by
        rcases hw with ⟨_, h⟩ | ⟨b, hbm, hbn, u', x, hbb⟩
        · exact hr.integral e he (hty ▸ leafType_integral h)
        · exact hr.usable e he (mem_assignedValues.2 ⟨b, hbm, hbn, u', x, hbb⟩) (hty ▸ leafType_oid hk2)
      refine ⟨_, ?_, hdone e.value hk1 (.reference hs hk1 g1 g2 g4) env hr⟩
      unfold declare eval
      rw [hfree env hr]
      simp only [hfe, huse, hty, if_true]
      rfl

theorem assign_all {tree : Tree} {ar : Around} (hc : Constants tree ar.printed) {m : Module} (hm : m ∈ tree.modules) : ∀ (post pre : List Assignment),
    m.assignments = pre ++ post → ∃ f0, ∀ f, f0 ≤ f → ∀ env, Ready tree m (assignedValues { m with assignments := pre }) env →
      ∃ env', assignConstants tree f ar m post env = .ok (some env') ∧ Ready tree m (assignedValues m) env' := by
  intro post
  induction post with
  | nil =>
    intro pre hp
    refine ⟨0, fun f _ env hr => ⟨env, rfl, ?_⟩⟩
    have : assignedValues { m with assignments := pre } = assignedValues m := by
      unfold assignedValues
      rw [hp, List.append_nil]
    exact this ▸ hr
  | cons a post ih =>
    intro pre hp
    obtain ⟨f1, h1⟩ := ih (pre ++ [a]) (by rw [hp]; simp)
    have hadd : assignedValues { m with assignments := pre ++ [a] } = assignedValues { m with assignments := pre } ++ (match a.body with
        | .value _ _ => [a.name]
        | _ => []) := by
      unfold assignedValues
      rw [List.filterMap_append]
      congr 1
      cases hb : a.body <;> simp [hb]
    cases hb : a.body with
    | value t v =>
      rw [hb] at hadd
      obtain ⟨f2, h2⟩ := constant_step hc hm hp hb
      refine ⟨f1 + f2, fun f hf env hr => ?_⟩
      obtain ⟨d, h3, _, h4⟩ := h2 f (by omega)
      obtain ⟨env1, h5, h6⟩ := h4 env hr
      obtain ⟨env', h7, h8⟩ := h1 f (by omega) env1 (hadd ▸ h6)
      refine ⟨env', ?_, h8⟩
      unfold assignConstants
      simp only [hb, h3, Res.ok_bind, h5]
      exact h7
    | _ =>
      rw [hb] at hadd
      refine ⟨f1, fun f hf env hr => ?_⟩
      obtain ⟨env', h7, h8⟩ := h1 f hf env (by rw [hadd, List.append_nil]; exact hr)
      refine ⟨env', ?_, h8⟩
      unfold assignConstants
      simp only [hb]
      exact h7

/-- The namespaces written so far. -/
structure SpacesOk (tree : Tree) (done : List Module) (ss : Spaces) : Prop where
  names : ss.map (·.1) = done.map (·.name)
  ready : ∀ w ∈ done, ∃ env, (w.name, env) ∈ ss ∧ Ready tree w (assignedValues w) env

theorem find_space {tree : Tree} {done : List Module} {ss : Spaces} (h : SpacesOk tree done ss) (hn : (done.map (·.name)).Nodup) {w : Module} (hw : w ∈ done) :
    ∃ env, Ready tree w (assignedValues w) env ∧ ∀ n ∈ importedValues w ++ assignedValues w, ∃ e ∈ env, e.name = n ∧ ss.find w.name n = some e := by
  obtain ⟨env, h1, h2⟩ := h.ready w hw
  refine ⟨env, h2, fun n hn' => ?_⟩
  obtain ⟨e, he, hne, hf⟩ := find_env (h2.names ▸ hn')
  refine ⟨e, he, hne, ?_⟩
  have := find_of_nodup (·.1) (l := ss) (by rw [h.names]; exact hn) h1
  unfold Spaces.find
  rw [this]
  exact hf

theorem import_all {tree : Tree} {printed : UInt64 → UInt64} (hc : Constants tree printed) {done : List Module} {m : Module} {after : List Module}
    (ht : tree.modules = done ++ m :: after) {ss : Spaces} (hs : SpacesOk tree done ss) : ∃ env, importConstants ss (valueImports m) [] = some env ∧ Ready tree m [] env := by
  have hm : m ∈ tree.modules := by rw [ht]; simp
  have hnd : (done.map (·.name)).Nodup := by
    have := hc.modules
    rw [ht, List.map_append] at this
    exact (List.nodup_append.1 this).1
  have key : ∀ (is : List (Name × Name)) (pre : List (Name × Name)) (env : List Entry), valueImports m = pre ++ is → env.map (·.name) = pre.map (·.2) →
      (∀ e ∈ env, Good tree m.name e ∧ (e.type = .int64 ∨ e.type = .bool → e.usable = true)) →
      ∃ env', importConstants ss is env = some env' ∧ env'.map (·.name) = (valueImports m).map (·.2) ∧ ∀ e ∈ env', Good tree m.name e ∧ (e.type = .int64 ∨ e.type = .bool → e.usable = true) := by
    intro is
    induction is with
    | nil => intro pre env hp hn hg; exact ⟨env, rfl, by rw [hn, hp, List.append_nil], hg⟩
    | cons p is ih =>
      obtain ⟨im, n⟩ := p
      intro pre env hp hn hg
      have hin : (im, n) ∈ valueImports m := by rw [hp]; simp
      obtain ⟨i, hi, hin⟩ := List.mem_flatMap.1 hin
      obtain ⟨n', hn', heq⟩ := List.mem_map.1 hin
      cases heq
      obtain ⟨w, hw, hwn, hwv⟩ := hc.imports done m after ht i hi _ hn'
      obtain ⟨env1, hr, hfind⟩ := find_space hs hnd hw
      obtain ⟨e, he, rfl, hf⟩ := hfind _ hwv
      obtain ⟨mod', t, v, k, nn, g1, g2, g3, g4, g5⟩ := hr.good e he
      have hfree : env.any (·.name == e.name) = false := by
        rw [List.any_eq_false]
        intro e' he' h
        have h1 : e.name ∈ pre.map (·.2) := by
          rw [← hn, ← (by simpa using h : e'.name = e.name)]
          exact List.mem_map_of_mem (f := (·.name)) he'
        have h2 : ((valueImports m).map (·.2)).Nodup := by
          have := (List.nodup_append.1 (hc.values m hm)).1
          unfold valueImports
          rw [List.map_flatMap]
          simpa [importedValues, Function.comp_def] using this
        rw [hp, List.map_append] at h2
        exact (List.nodup_append.1 h2).2.2 _ h1 _ List.mem_cons_self rfl
      have hgood : Good tree m.name (imported e) ∧ ((imported e).type = .int64 ∨ (imported e).type = .bool → (imported e).usable = true) := by
        refine ⟨⟨mod', t, v, k, nn, .imported (find_of_nodup (·.name) hc.modules hm) hi hn' (hwn ▸ g1), g2, g3, g4, g5⟩, fun h => ?_⟩
        have h : e.type = .int64 ∨ e.type = .bool := h
        unfold imported
        rcases h with h | h <;> simp [h]
      obtain ⟨env', k1, k2⟩ := ih (pre ++ [(i.module, e.name)]) (env ++ [imported e]) (by rw [hp]; simp) (by simp [hn, imported]) (by
        intro e' he'
        rcases List.mem_append.1 he' with he' | he'
        · exact hg e' he'
        · obtain rfl := List.mem_singleton.1 he'
          exact hgood)
      refine ⟨env', ?_, k2⟩
      unfold importConstants
      rw [← hwn, hf]
      simp only [hfree]
      exact k1
  obtain ⟨env, h1, h2, h3⟩ := key (valueImports m) [] [] rfl rfl (by simp)
  refine ⟨env, h1, ?_, fun e he => (h3 e he).1, fun e _ h => by simp at h, fun e he => (h3 e he).2⟩
  rw [h2, List.append_nil]
  unfold valueImports importedValues
  rw [List.map_flatMap]
  simp [Function.comp_def]

theorem all_constants {tree : Tree} {ar : Name → Around} (hc : ∀ n, Constants tree (ar n).printed) : ∀ (after done : List Module), tree.modules = done ++ after →
    ∃ f0, ∀ f, f0 ≤ f → ∀ ss, SpacesOk tree done ss → ∃ ss', allConstants tree f ar after ss = .ok (some ss') ∧ SpacesOk tree tree.modules ss' := by
  intro after
  induction after with
  | nil =>
    intro done ht
    refine ⟨0, fun f _ ss hs => ⟨ss, rfl, ?_⟩⟩
    rw [ht, List.append_nil]
    exact hs
  | cons m after ih =>
    intro done ht
    have hm : m ∈ tree.modules := by rw [ht]; simp
    obtain ⟨f1, h1⟩ := ih (done ++ [m]) (by rw [ht]; simp)
    obtain ⟨f2, h2⟩ := assign_all (hc m.name) hm m.assignments [] rfl
    refine ⟨f1 + f2, fun f hf ss hs => ?_⟩
    obtain ⟨env, h3, h4⟩ := import_all (hc m.name) ht hs
    obtain ⟨env', h5, h6⟩ := h2 f (by omega) env h4
    have hs' : SpacesOk tree (done ++ [m]) (ss ++ [(m.name, env')]) := by
      refine ⟨by simp [hs.names], fun w hw => ?_⟩
      rcases List.mem_append.1 hw with hw | hw
      · obtain ⟨e, g1, g2⟩ := hs.ready w hw
        exact ⟨e, List.mem_append_left _ g1, g2⟩
      · obtain rfl := List.mem_singleton.1 hw
        exact ⟨env', by simp, h6⟩
    obtain ⟨ss', h7, h8⟩ := h1 f (by omega) _ hs'
    refine ⟨ss', ?_, h8⟩
    unfold allConstants
    simp only [h3, h5, Res.ok_bind]
    exact h7

end FastBer.Constants
