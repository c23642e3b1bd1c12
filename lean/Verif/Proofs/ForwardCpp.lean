import Verif.Model.Forward
import Verif.Proofs.EmitType
/-!
# Running C++ declarations with forward declarations: what is visible afterwards (see Proofs/Cpp)
-/
namespace FastBer.Ast.Fwd

/-- The names declared in the current scope. -/
def Env.cur (env : Env) (here n : Name) : Option Ent :=
  match env.scopes with
  | [] => env.spaces.lookup (here, n)
  | s :: _ => s.lookup n

/-- The environment with more names in the current scope. -/
def Env.adds (env : Env) (here : Name) (new : List (Name × Ent)) : Env :=
  match env.scopes with
  | [] => { env with spaces := new.map (fun p => ((here, p.1), p.2)) ++ env.spaces }
  | s :: ss => { env with scopes := (new ++ s) :: ss }

/-- `env'` is `env` with the names `new` declared in the current scope, none of which hides another. -/
structure SpaceStep (here : Name) (env env' : Env) (new : List (Name × Ent)) : Prop where
  eq : env' = env.adds here new
  seen : ∀ p ∈ new, env'.cur here p.1 = some p.2
  kept : ∀ n e, env.cur here n = some e → env'.cur here n = some e

theorem Env.adds_adds (env : Env) (here : Name) (a b : List (Name × Ent)) : (env.adds here a).adds here b = env.adds here (b ++ a) := by
  obtain ⟨sp, sc⟩ := env
  cases sc <;> simp [Env.adds]

theorem SpaceStep.refl (here : Name) (env : Env) : SpaceStep here env env [] where
  eq := by
    obtain ⟨sp, sc⟩ := env
    cases sc <;> simp [Env.adds]
  seen := by simp
  kept := fun _ _ h => h

theorem SpaceStep.trans {here : Name} {a b c : Env} {n1 n2 : List (Name × Ent)} (h1 : SpaceStep here a b n1) (h2 : SpaceStep here b c n2) :
    SpaceStep here a c (n2 ++ n1) where
  eq := by rw [h2.eq, h1.eq, Env.adds_adds]
  seen := by
    intro p hp
    rcases List.mem_append.1 hp with hp | hp
    · exact h2.seen p hp
    · exact h2.kept _ _ (h1.seen p hp)
  kept := fun n e h => h2.kept n e (h1.kept n e h)

theorem declare_ok {env env' : Env} {here n : Name} {e : Ent} (h : env.declare here n e = .ok env') :
    env.cur here n = none ∧ SpaceStep here env env' [(n, e)] := by
  obtain ⟨sp, sc⟩ := env
  cases sc with
  | nil =>
    simp only [Env.declare] at h
    split at h
    · cases h
    · rename_i hl
      cases h
      refine ⟨hl, ⟨rfl, ?_, ?_⟩⟩
      · simp [Env.cur]
      · intro m e' he
        simp only [Env.cur] at he ⊢
        rw [List.lookup_cons]
        split
        · rename_i hb
          have : (here, m) = (here, n) := by simpa using hb
          cases this
          rw [hl] at he; cases he
        · exact he
  | cons s ss =>
    simp only [Env.declare] at h
    split at h
    · cases h
    · rename_i hl
      cases h
      refine ⟨hl, ⟨rfl, ?_, ?_⟩⟩
      · simp [Env.cur]
      · intro m e' he
        simp only [Env.cur] at he ⊢
        rw [List.lookup_cons]
        split
        · rename_i hb
          have : m = n := by simpa using hb
          cases this
          rw [hl] at he; cases he
        · exact he

theorem runAll_append {lib : Lib} {tree : Tree} {here : Name} : ∀ {ds es : List Decl} {env env' : Env}, runAll lib tree here env (ds ++ es) = .ok env' →
    ∃ mid, runAll lib tree here env ds = .ok mid ∧ runAll lib tree here mid es = .ok env'
  | [], es, env, env', h => ⟨env, rfl, h⟩
  | d :: ds, es, env, env', h => by
    simp only [List.cons_append, runAll] at h
    obtain ⟨m, h1, h2⟩ := Res.bind_eq_ok.1 h
    obtain ⟨mid, h3, h4⟩ := runAll_append h2
    exact ⟨mid, by simp only [runAll, h1, Res.ok_bind]; exact h3, h4⟩

theorem runAll_single {lib : Lib} {tree : Tree} {here : Name} {d : Decl} {env env' : Env} (h : runAll lib tree here env [d] = .ok env') :
    run lib tree here env d = .ok env' := by
  simp only [runAll] at h
  obtain ⟨m, h1, h2⟩ := Res.bind_eq_ok.1 h
  cases h2
  exact h1

/-- Entering a struct. -/
def Env.enter (env : Env) : Env := { env with scopes := [] :: env.scopes }

theorem Env.enter_cur (env : Env) (here n : Name) : env.enter.cur here n = none := rfl

/-- A name of the current scope is found first. -/
theorem find_cur {env : Env} {here n : Name} {e : Ent} (h : env.cur here n = some e) : env.find here n = some e := by
  obtain ⟨sp, sc⟩ := env
  cases sc with
  | nil => simpa [Env.find, Env.cur] using h
  | cons s ss =>
    simp only [Env.cur] at h
    simp [Env.find, h]

/-- A name that is in no scope is found in the namespace. -/
theorem find_space {env : Env} {here n : Name} (h : ∀ s ∈ env.scopes, s.lookup n = none) : env.find here n = env.spaces.lookup (here, n) := by
  unfold Env.find
  rw [show env.scopes.findSome? (fun s => s.lookup n) = none from by
    rw [List.findSome?_eq_none_iff]; exact h]

/-- Declarations inside a struct change its scope only. -/
theorem SpaceStep.scopes {here : Name} {env env' : Env} {new : List (Name × Ent)} (h : SpaceStep here env env' new) {s : List (Name × Ent)}
    {ss : List (List (Name × Ent))} (hs : env.scopes = s :: ss) : env'.scopes = (new ++ s) :: ss ∧ env'.spaces = env.spaces := by
  rw [h.eq]
  obtain ⟨sp, sc⟩ := env
  simp only at hs
  subst hs
  exact ⟨rfl, rfl⟩

/-- Declarations outside of structs change the namespace only. -/
theorem SpaceStep.spaces {here : Name} {env env' : Env} {new : List (Name × Ent)} (h : SpaceStep here env env' new) (hs : env.scopes = []) :
    env'.scopes = [] ∧ env'.spaces = new.map (fun p => ((here, p.1), p.2)) ++ env.spaces := by
  rw [h.eq]
  obtain ⟨sp, sc⟩ := env
  simp only at hs
  subst hs
  exact ⟨rfl, rfl⟩

theorem needType_ok {o : Option Ent} {T : RTy Key} (h : needType o = .ok T) : o = some (.type T) := by
  unfold needType at h
  split at h
  · cases h; rfl
  · cases h

/-- What is declared in a namespace stays. -/
theorem SpaceStep.lookup {here : Name} {env env' : Env} {new : List (Name × Ent)} (h : SpaceStep here env env' new) (hs : env.scopes = []) {m n : Name} {e : Ent}
    (hl : env.spaces.lookup (m, n) = some e) : env'.spaces.lookup (m, n) = some e := by
  obtain ⟨h1, h2⟩ := h.spaces hs
  by_cases hm : m = here
  · subst hm
    have := h.kept n e (by unfold Env.cur; rw [hs]; exact hl)
    unfold Env.cur at this
    rw [h1] at this
    exact this
  · rw [h2]
    have : ∀ l : List (Name × Ent), (l.map (fun p => ((here, p.1), p.2)) ++ env.spaces).lookup (m, n) = some e := by
      intro l
      induction l with
      | nil => exact hl
      | cons p l ih =>
        rw [List.map_cons, List.cons_append, List.lookup_cons]
        have : ((m, n) == (here, p.1)) = false := by simp [hm]
        rw [this]
        exact ih
    exact this new

end FastBer.Ast.Fwd
