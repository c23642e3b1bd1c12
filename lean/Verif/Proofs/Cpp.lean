import Verif.Model.Emit
/-!
# Running C++ declarations: what is visible afterwards
-/
namespace FastBer.Ast

/-- The names declared in the current scope. -/
def Env.cur (env : Env) (here n : Name) : Option Ent :=
  match env.scopes with
  | [] => env.spaces.lookup (here, n)
  | s :: _ => s.lookup n

/-- The environment with more names in the current scope. -/
def Env.adds (env : Env) (here : Name) (new : List (Name × Ent)) : Env :=
  match env.scopes with
  | [] => { env with spaces := new.map (fun p => ((here, p.1), p.2)) ++ env.spaces }
  | s :: ss => { env with scopes := (new ++ s) :: ss }

/-- `env'` is `env` with the names `new` declared in the current scope, none of which hides another. -/
structure SpaceStep (here : Name) (env env' : Env) (new : List (Name × Ent)) : Prop where
  eq : env' = env.adds here new
  seen : ∀ p ∈ new, env'.cur here p.1 = some p.2
  kept : ∀ n e, env.cur here n = some e → env'.cur here n = some e

theorem Env.adds_adds (env : Env) (here : Name) (a b : List (Name × Ent)) : (env.adds here a).adds here b = env.adds here (b ++ a) := by
  obtain ⟨sp, sc⟩ := env
  cases sc <;> simp [Env.adds]

theorem SpaceStep.refl (here : Name) (env : Env) : SpaceStep here env env [] where
  eq := by
    obtain ⟨sp, sc⟩ := env
    cases sc <;> simp [Env.adds]
  seen := by simp
  kept := fun _ _ h => h

theorem SpaceStep.trans {here : Name} {a b c : Env} {n1 n2 : List (Name × Ent)} (h1 : SpaceStep here a b n1) (h2 : SpaceStep here b c n2) :
    SpaceStep here a c (n2 ++ n1) where
  eq := by rw [h2.eq, h1.eq, Env.adds_adds]
  seen := by
    intro p hp
    rcases List.mem_append.1 hp with hp | hp
    · exact h2.seen p hp
    · exact h2.kept _ _ (h1.seen p hp)
  kept := fun n e h => h2.kept n e (h1.kept n e h)

theorem lookup_here (here n : Name) (e : Ent) (l : List ((Name × Name) × Ent)) : ((here, n), e) :: l = [((here, n), e)] ++ l := rfl

theorem declare_ok {env env' : Env} {here n : Name} {e : Ent} (h : env.declare here n e = .ok env') :
    env.cur here n = none ∧ SpaceStep here env env' [(n, e)] := by
  obtain ⟨sp, sc⟩ := env
  cases sc with
  | nil =>
    simp only [Env.declare] at h
    split at h
    · cases h
    · rename_i hl
      cases h
      refine ⟨hl, ⟨rfl, ?_, ?_⟩⟩
      · simp [Env.cur]
      · intro m e' he
        simp only [Env.cur] at he ⊢
        rw [List.lookup_cons]
        split
        · rename_i hb
          have : (here, m) = (here, n) := by simpa using hb
          cases this
          rw [hl] at he; cases he
        · exact he
  | cons s ss =>
    simp only [Env.declare] at h
    split at h
    · cases h
    · rename_i hl
      cases h
      refine ⟨hl, ⟨rfl, ?_, ?_⟩⟩
      · simp [Env.cur]
      · intro m e' he
        simp only [Env.cur] at he ⊢
        rw [List.lookup_cons]
        split
        · rename_i hb
          have : m = n := by simpa using hb
          cases this
          rw [hl] at he; cases he
        · exact he

theorem runAll_append {lib : Lib} {here : Name} : ∀ {ds es : List Decl} {env env' : Env}, Decl.runAll lib here env (ds ++ es) = .ok env' →
    ∃ mid, Decl.runAll lib here env ds = .ok mid ∧ Decl.runAll lib here mid es = .ok env'
  | [], es, env, env', h => ⟨env, rfl, h⟩
  | d :: ds, es, env, env', h => by
    simp only [List.cons_append, Decl.runAll] at h
    obtain ⟨m, h1, h2⟩ := Res.bind_eq_ok.1 h
    obtain ⟨mid, h3, h4⟩ := runAll_append h2
    exact ⟨mid, by simp only [Decl.runAll, h1, Res.ok_bind]; exact h3, h4⟩

theorem runAll_single {lib : Lib} {here : Name} {d : Decl} {env env' : Env} (h : Decl.runAll lib here env [d] = .ok env') :
    d.run lib here env = .ok env' := by
  simp only [Decl.runAll] at h
  obtain ⟨m, h1, h2⟩ := Res.bind_eq_ok.1 h
  cases h2
  exact h1

/-- Entering a struct. -/
def Env.enter (env : Env) : Env := { env with scopes := [] :: env.scopes }

theorem Env.enter_cur (env : Env) (here n : Name) : env.enter.cur here n = none := rfl

/-- A name of the current scope is found first. -/
theorem find_cur {env : Env} {here n : Name} {e : Ent} (h : env.cur here n = some e) : env.find here n = some e := by
  obtain ⟨sp, sc⟩ := env
  cases sc with
  | nil => simpa [Env.find, Env.cur] using h
  | cons s ss =>
    simp only [Env.cur] at h
    simp [Env.find, h]

/-- A name that is in no scope is found in the namespace. -/
theorem find_space {env : Env} {here n : Name} (h : ∀ s ∈ env.scopes, s.lookup n = none) : env.find here n = env.spaces.lookup (here, n) := by
  unfold Env.find
  rw [show env.scopes.findSome? (fun s => s.lookup n) = none from by
    rw [List.findSome?_eq_none_iff]; exact h]

theorem lookup_mem {α β : Type} [BEq α] [LawfulBEq α] {l : List (α × β)} {a : α} {b : β} (h : l.lookup a = some b) : (a, b) ∈ l := by
  induction l with
  | nil => cases h
  | cons p l ih =>
    rw [List.lookup_cons] at h
    split at h
    · rename_i hb
      have : a = p.1 := by simpa using hb
      subst this
      cases h
      exact List.mem_cons_self
    · exact List.mem_cons_of_mem _ (ih h)

theorem lookup_none_iff {α β : Type} [BEq α] [LawfulBEq α] {l : List (α × β)} {a : α} : l.lookup a = none ↔ ∀ b, (a, b) ∉ l := by
  induction l with
  | nil => simp
  | cons p l ih =>
    rw [List.lookup_cons]
    split
    · rename_i hb
      have : a = p.1 := by simpa using hb
      subst this
      simp only [reduceCtorEq, List.mem_cons, not_or, false_iff]
      exact fun h => (h p.2).1 rfl
    · rename_i hb
      rw [ih]
      constructor
      · intro h b hm
        rcases List.mem_cons.1 hm with hm | hm
        · subst hm; simp at hb
        · exact h b hm
      · exact fun h b hm => h b (List.mem_cons_of_mem _ hm)

/-- Declarations inside a struct change its scope only. -/
theorem SpaceStep.scopes {here : Name} {env env' : Env} {new : List (Name × Ent)} (h : SpaceStep here env env' new) {s : List (Name × Ent)}
    {ss : List (List (Name × Ent))} (hs : env.scopes = s :: ss) : env'.scopes = (new ++ s) :: ss ∧ env'.spaces = env.spaces := by
  rw [h.eq]
  obtain ⟨sp, sc⟩ := env
  simp only at hs
  subst hs
  exact ⟨rfl, rfl⟩

/-- Declarations outside of structs change the namespace only. -/
theorem SpaceStep.spaces {here : Name} {env env' : Env} {new : List (Name × Ent)} (h : SpaceStep here env env' new) (hs : env.scopes = []) :
    env'.scopes = [] ∧ env'.spaces = new.map (fun p => ((here, p.1), p.2)) ++ env.spaces := by
  rw [h.eq]
  obtain ⟨sp, sc⟩ := env
  simp only at hs
  subst hs
  exact ⟨rfl, rfl⟩

theorem needType_ok {o : Option Ent} {T : Ty} (h : needType o = .ok T) : o = some (.type T) := by
  unfold needType at h
  split at h
  · cases h; rfl
  · cases h

theorem need_ok {α : Type} {o : Option α} {a : α} (h : need o = .ok a) : o = some a := by
  unfold need at h
  split at h
  · cases h; rfl
  · cases h

end FastBer.Ast
