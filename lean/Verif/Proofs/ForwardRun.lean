import Verif.Proofs.RunModules
import Verif.Proofs.ForwardSound
/-!
# What is written for supported, legal schemas with circular references is valid C++

As Proofs/RunEmit, for `Fwd.run`.
-/
namespace FastBer.Ast.Fwd
open Spec FastBer.Props

/-! ## Declaring names -/

theorem declare_total {env : Env} {here n : Name} (e : Ent) (h : env.cur here n = none) : ∃ env', env.declare here n e = .ok env' := by
  obtain ⟨sp, sc⟩ := env
  cases sc with
  | nil =>
    simp only [Env.cur] at h
    simp only [Env.declare, h]
    exact ⟨_, rfl⟩
  | cons s ss =>
    simp only [Env.cur] at h
    simp only [Env.declare, h]
    exact ⟨_, rfl⟩

/-- A name that is not among the new ones is as before. -/
theorem SpaceStep.other {here : Name} {env env' : Env} {new : List (Name × Ent)} (h : SpaceStep here env env' new) {n : Name} (hn : ∀ p ∈ new, p.1 ≠ n) :
    env'.cur here n = env.cur here n := by
  rw [h.eq]
  obtain ⟨sp, sc⟩ := env
  cases sc with
  | nil =>
    simp only [Env.adds, Env.cur]
    refine lookup_append_none fun p hp => ?_
    obtain ⟨q, hq, rfl⟩ := List.mem_map.1 hp
    intro he
    exact hn q hq (Prod.mk.inj he).2
  | cons s ss =>
    simp only [Env.adds, Env.cur]
    exact lookup_append_none hn

theorem runAll_append_ok {lib : Lib} {tree : Tree} {here : Name} : ∀ {ds es : List Decl} {env mid env' : Env}, runAll lib tree here env ds = .ok mid →
    runAll lib tree here mid es = .ok env' → runAll lib tree here env (ds ++ es) = .ok env'
  | [], es, env, mid, env', h, h' => by cases h; exact h'
  | d :: ds, es, env, mid, env', h, h' => by
    simp only [runAll] at h
    obtain ⟨m, h1, h2⟩ := Res.bind_eq_ok.1 h
    simp only [List.cons_append, runAll, h1, Res.ok_bind]
    exact runAll_append_ok h2 h'

theorem runAll_one {lib : Lib} {tree : Tree} {here : Name} {d : Decl} {env env' : Env} (h : run lib tree here env d = .ok env') : runAll lib tree here env [d] = .ok env' := by
  simp only [runAll, h, Res.ok_bind]

/-- Names that end in `Values` are those of enumerations. -/
def EnumScopes (scopes : List (List (Name × Ent))) : Prop := ∀ s ∈ scopes, ∀ p ∈ s, ∀ q, p.1 = q ++ "Values" → p.2 = .enum

theorem findSome_lookup {scopes : List (List (Name × Ent))} (h : EnumScopes scopes) {q : Name} {e : Ent}
    (he : scopes.findSome? (fun s => s.lookup (q ++ "Values")) = some e) : e = .enum := by
  obtain ⟨s, hs, hl⟩ := List.exists_of_findSome?_eq_some he
  exact h s hs _ (lookup_mem hl) q rfl

theorem find_values {env : Env} (h : EnumScopes env.scopes) {here q : Name} (hl : env.spaces.lookup (here, q ++ "Values") = some .enum) :
    env.find here (q ++ "Values") = some .enum := by
  unfold Env.find
  split
  · rename_i e he
    rw [findSome_lookup h he]
  · exact hl

/-- What is declared for a component has no other names that end in `Values`. -/
theorem Names.values {lib : Lib} {tree : Tree} (hC : CompilableNames tree) {mod : Module} {n parent : Name} {t : AType} (hf : Spec.Field tree mod n t) {T : RTy Key}
    {new : List (Name × Ent)} (h : Names lib tree mod t (makeTypeName n parent) T new) : ∀ p ∈ new, ∀ q, p.1 = q ++ "Values" → p.2 = .enum := by
  intro p hp q hq
  obtain ⟨a, e⟩ := p
  cases e with
  | enum => rfl
  | type T' =>
    obtain ⟨k, u, rfl, _⟩ := h.types _ _ hp
    cases k with
    | zero =>
      simp only [contained] at hq
      rcases makeTypeName_eq n parent with he | he
      · rw [he] at hq; exact absurd hq (hC.fieldValues _ _ _ hf q)
      · rw [he] at hq; exact absurd hq (underscore_values _ _)
    | succ k => exact absurd hq.symm (values_ne _ _)

theorem memberTy_total {lib : Lib} {tree : Tree} (hS : Supported tree) {fuel : Nat} {mod : Module} {n : Name} {t : AType} {T : RTy Key} {w : Option CId}
    (ho : Occurs tree mod t) (hT : T.Body lib tree mod t) (hw : componentFunction tree fuel mod n t = .ok w) : ∃ T', memberTy T w = .ok T' := by
  unfold componentFunction at hw
  obtain ⟨r, h1, h2⟩ := Res.bind_eq_ok.1 hw
  obtain ⟨wm, hcore⟩ := resolveType_ref hS ho h1
  rw [isGenerated_untag] at h2
  split at h2
  · rename_i hst
    obtain ⟨info, h3, h4⟩ := Res.bind_eq_ok.1 h2
    split at h4
    · cases h4; exact ⟨T, rfl⟩
    · cases h4
      obtain ⟨ts, ho', hf⟩ := identifier_own (hS.tags _ _ ho) h3
      cases T with
      | leaf l i =>
        obtain ⟨wm', k, hc, _⟩ := hT
        rw [(hcore.unique hc).2] at hst
        cases hst
      | seqOf i T =>
        obtain ⟨wm', n, u, s, hc, _⟩ := hT
        rcases hc with hc | hc <;> (rw [(hcore.unique hc).2] at hst; cases hst)
      | seq i fs =>
        obtain ⟨wm', cs, e, hc, _⟩ := hT
        obtain ⟨j, hj⟩ := ident_some (id := info.cid) (by rw [hf.list]; exact ownTags_core ho' hc (by simp))
        exact ⟨.seq j fs, by simp only [memberTy, withId, hj, need, Res.ok_bind]⟩
      | set i e fs =>
        obtain ⟨wm', cs, hc, _⟩ := hT
        obtain ⟨j, hj⟩ := ident_some (id := info.cid) (by rw [hf.list]; exact ownTags_core ho' hc (by simp))
        exact ⟨.set j e fs, by simp only [memberTy, withId, hj, need, Res.ok_bind]⟩
      | choice cid as => exact ⟨_, rfl⟩
      | ref k => exact ⟨_, rfl⟩
  · cases h2; exact ⟨T, rfl⟩

theorem memberKind_total {lib : Lib} {tree : Tree} {mod : Module} {c : Comp} {T : RTy Key} (hT : T.Body lib tree mod c.type)
    (hd : ∀ v, c.optional = false → c.default = some v → ∃ wm k, Core tree mod c.type wm (.leaf k) ∧
      ∀ l i, lib.leaf k = some l ∨ (k = .enumerated ∧ l = .enum) → (lib.default (.leaf l i) v).isSome) :
    ∃ k, memberKind lib T c.optional c.default = .ok k := by
  unfold memberKind
  cases ho : c.optional with
  | true => exact ⟨_, rfl⟩
  | false =>
    cases hv : c.default with
    | none => exact ⟨_, rfl⟩
    | some v =>
      obtain ⟨wm, k, hc, hl⟩ := hd v ho hv
      cases T with
      | leaf l i =>
        obtain ⟨wm', k', hc', hl'⟩ := hT
        have := (hc.unique hc').2
        cases this
        obtain ⟨d, hd'⟩ := Option.isSome_iff_exists.1 (hl l i hl')
        exact ⟨.default d, by simp only [Bool.false_eq_true, if_false, closed?, hd', need, Res.ok_bind]⟩
      | seqOf i T =>
        obtain ⟨wm', n, u, s, hc', _⟩ := hT
        rcases hc' with hc' | hc' <;> (have := (hc.unique hc').2; cases this)
      | seq i fs => obtain ⟨wm', cs, e, hc', _⟩ := hT; have := (hc.unique hc').2; cases this
      | set i e fs => obtain ⟨wm', cs, hc', _⟩ := hT; have := (hc.unique hc').2; cases this
      | choice cid as => obtain ⟨wm', as', s, hc', _⟩ := hT; have := (hc.unique hc').2; cases this
      | ref k => obtain ⟨_, _, w, c, _, _, hc', hs, _⟩ := hT; have := (hc.unique hc').2; subst this; cases hs

theorem runMembers_total {lib : Lib} {tree : Tree} (hS : Supported tree) {fuel : Nat} {mod : Module} {isSet : Bool} {parent : Name} {env : Env} :
    ∀ (cs : List Comp) (i : Nat) (ms : List Member),
    (∀ c ∈ cs, Occurs tree mod c.type ∧ Spec.Field tree mod c.name c.type) →
    (∀ c ∈ cs, ∀ v, c.optional = false → c.default = some v → ∃ wm k, Core tree mod c.type wm (.leaf k) ∧
      ∀ l i, lib.leaf k = some l ∨ (k = .enumerated ∧ l = .enum) → (lib.default (.leaf l i) v).isSome) →
    createMembers tree fuel mod isSet parent i cs = .ok ms → AllDeclared lib tree fuel mod env parent i cs → ∃ fs, runMembers lib mod.name env ms = .ok fs
  | [], i, ms, _, _, hc, _ => by
    rw [createMembers] at hc
    cases hc
    exact ⟨_, rfl⟩
  | c :: cs, i, ms, hoc, hdef, hc, hd => by
    rw [createMembers] at hc
    obtain ⟨w, h1, hc⟩ := Res.bind_eq_ok.1 hc
    obtain ⟨ls, h2, hc⟩ := Res.bind_eq_ok.1 hc
    obtain ⟨rest, h3, hc⟩ := Res.bind_eq_ok.1 hc
    cases hc
    obtain ⟨⟨T, hcur, hmade⟩, hd'⟩ := hd
    obtain ⟨ho, hf⟩ := hoc c List.mem_cons_self
    obtain ⟨T', hT'⟩ := memberTy_total hS ho hmade.1 h1
    have his := member_is hS ho hf hmade h1 hT'
    obtain ⟨k, hk⟩ := memberKind_total (his.1.of_core fun _ _ => effective_core) (hdef c List.mem_cons_self)
    obtain ⟨fs, hfs⟩ := runMembers_total hS cs (i + 1) rest (fun c hc => hoc c (List.mem_cons_of_mem _ hc)) (fun c hc => hdef c (List.mem_cons_of_mem _ hc)) h3 hd'
    exact ⟨.cons k (ls.map TagId.id) T' fs, by simp only [runMembers, find_cur hcur, needType, Res.ok_bind, hT', hk, hfs]⟩

theorem runAlts_total {lib : Lib} {tree : Tree} (hS : Supported tree) {fuel : Nat} {mod : Module} {env : Env} :
    ∀ (as : List Named) (i : Nat) (ms : List AltMember),
    (∀ a ∈ as, Occurs tree mod a.type ∧ Spec.Field tree mod a.name a.type) →
    createAlternatives tree fuel mod i as = .ok ms → AltsDeclared lib tree fuel mod env i as → ∃ fs, runAlts mod.name env ms = .ok fs
  | [], i, ms, _, hc, _ => by
    rw [createAlternatives] at hc
    cases hc
    exact ⟨_, rfl⟩
  | c :: cs, i, ms, hoc, hc, hd => by
    rw [createAlternatives] at hc
    obtain ⟨w, h1, hc⟩ := Res.bind_eq_ok.1 hc
    obtain ⟨ls, h2, hc⟩ := Res.bind_eq_ok.1 hc
    obtain ⟨rest, h3, hc⟩ := Res.bind_eq_ok.1 hc
    cases hc
    obtain ⟨⟨T, hcur, hmade⟩, hd'⟩ := hd
    obtain ⟨ho, hf⟩ := hoc c List.mem_cons_self
    obtain ⟨T', hT'⟩ := memberTy_total hS ho hmade.1 h1
    obtain ⟨fs, hfs⟩ := runAlts_total hS cs (i + 1) rest (fun c hc => hoc c (List.mem_cons_of_mem _ hc)) h3 hd'
    exact ⟨.cons (ls.map TagId.id) T' fs, by simp only [runAlts, find_cur hcur, needType, Res.ok_bind, hT', hfs]⟩

end FastBer.Ast.Fwd
