import Verif.Proofs.EmitMain
/-!
# `create_type_assignment`: the main induction
-/
namespace FastBer.Ast
open Spec

/-- What is wanted of the declarations for a type. -/
def Right (lib : Lib) (tree : Tree) (fuel : Nat) (mod : Module) (t : AType) (name : Name) (ov : Option CId) (env env' : Env) : Prop :=
  ∃ new T, SpaceStep mod.name env env' new ∧ Names lib tree mod t name T new ∧ Made_emit lib tree fuel mod t ov T

/-- The last declaration, after some enumerations. -/
theorem right_last {lib : Lib} {tree : Tree} {fuel : Nat} {mod : Module} {t : AType} {name : Name} {ov : Option CId} {env mid env' : Env}
    {pre : List (Name × Ent)} (hs : SpaceStep mod.name env mid pre) (hp : ∀ p ∈ pre, p.2 = .enum ∧ ∃ q, p.1 = q ++ "Values") {T : Ty}
    (hT : Made_emit lib tree fuel mod t ov T) (hd : mid.declare mod.name name (.type T) = .ok env') :
    Right lib tree fuel mod t name ov env env' := by
  refine ⟨_, T, hs.trans (declare_ok hd).2, ⟨by simp, ?_, ?_⟩, hT⟩
  · intro n T' h
    rcases List.mem_append.1 h with h | h
    · cases List.mem_singleton.1 h
      exact ⟨0, t, rfl, rfl, fun _ => rfl, fun h => absurd h (Nat.lt_irrefl 0)⟩
    · cases (hp _ h).1
  · intro n h
    rcases List.mem_append.1 h with h | h
    · cases List.mem_singleton.1 h
    · exact (hp _ h).2

theorem alias_run {lib : Lib} {tree : Tree} {fuel : Nat} {mod : Module} {t : AType} {name : Name} {ov : Option CId} {env env' : Env}
    {ds : List Decl} (hc : createAlias tree fuel mod name ov t = .ok ds) (hr : Decl.runAll lib mod.name env ds = .ok env') :
    ∃ id pre c mid T, Chosen tree fuel mod t ov id ∧ enumImport tree fuel mod t = .ok pre ∧ typeAsString tree mod fuel name id t = .ok c ∧
      Decl.runAll lib mod.name env pre = .ok mid ∧ c.denote lib mod.name mid = .ok T ∧ mid.declare mod.name name (.type T) = .ok env' := by
  unfold createAlias at hc
  obtain ⟨id, h1, hc⟩ := Res.bind_eq_ok.1 hc
  obtain ⟨pre, h2, hc⟩ := Res.bind_eq_ok.1 hc
  obtain ⟨c, h3, hc⟩ := Res.bind_eq_ok.1 hc
  cases hc
  obtain ⟨mid, h4, h5⟩ := runAll_append hr
  have h6 := runAll_single h5
  rw [Decl.run] at h6
  obtain ⟨T, h7, h8⟩ := Res.bind_eq_ok.1 h6
  exact ⟨id, pre, c, mid, T, h1, h2, h3, h4, h7, h8⟩

theorem needEnum_unit {o : Option Ent} {u : Unit} (_ : needEnum o = .ok u) : True := trivial

/-- What `denote` makes of a library type. -/
theorem denote_lib {lib : Lib} {here : Name} {env : Env} {k : Builtin} {id : CId} {T : Ty} (h : (CppTy.lib k id).denote lib here env = .ok T) :
    ∃ l i, lib.leaf k = some l ∧ id.ident = some i ∧ T = .leaf l i := by
  rw [CppTy.denote] at h
  obtain ⟨l, h1, h⟩ := Res.bind_eq_ok.1 h
  obtain ⟨i, h2, h⟩ := Res.bind_eq_ok.1 h
  cases h
  exact ⟨l, i, need_ok h1, need_ok h2, rfl⟩

theorem denote_enum {lib : Lib} {here v : Name} {env : Env} {id : CId} {T : Ty} (h : (CppTy.enumerated v id).denote lib here env = .ok T) :
    ∃ i, id.ident = some i ∧ T = .leaf .enum i := by
  rw [CppTy.denote] at h
  obtain ⟨l, h1, h⟩ := Res.bind_eq_ok.1 h
  obtain ⟨i, h2, h⟩ := Res.bind_eq_ok.1 h
  cases h
  exact ⟨i, need_ok h2, rfl⟩

theorem denote_seqOf {lib : Lib} {here n : Name} {env : Env} {id : CId} {T : Ty} (h : (CppTy.seqOf n id).denote lib here env = .ok T) :
    ∃ i E, env.find here n = some (.type E) ∧ id.ident = some i ∧ T = .seqOf i E := by
  rw [CppTy.denote] at h
  obtain ⟨E, h1, h⟩ := Res.bind_eq_ok.1 h
  obtain ⟨i, h2, h⟩ := Res.bind_eq_ok.1 h
  cases h
  exact ⟨i, E, needType_ok h1, need_ok h2, rfl⟩

/-- A simple type. -/
theorem leaf_right {lib : Lib} {tree : Tree} {fuel : Nat} {mod : Module} {k : Builtin} {name : Name} {path : Option Name} {ov : Option CId} {env env' : Env}
    {ds : List Decl} (hc : createType tree fuel mod (.leaf k) name path ov = .ok ds) (hr : Decl.runAll lib mod.name env ds = .ok env') :
    Right lib tree fuel mod (.leaf k) name ov env env' := by
  rw [createType] at hc
  obtain ⟨es, h1, hc⟩ := Res.bind_eq_ok.1 hc
  by_cases hk : k = .enumerated
  · subst hk
    rw [if_pos rfl] at hc
    cases hc
    rw [Decl.runAll] at hr
    obtain ⟨mid, h2, h3⟩ := Res.bind_eq_ok.1 hr
    rw [Decl.run] at h2
    have hstep := (declare_ok h2).2
    obtain ⟨id, pre, c, mid', T, h4, h5, h6, h7, h8, h9⟩ := alias_run h1 h3
    rw [enumImport] at h5
    · cases h5
      cases h7
      cases fuel with
      | zero => rw [typeAsString] at h6; cases h6
      | succ f =>
        rw [typeAsString] at h6
        cases h6
        obtain ⟨i, hi, rfl⟩ := denote_enum h8
        exact right_last (T := .leaf .enum i) hstep (by simp only [List.mem_singleton, forall_eq]; exact ⟨trivial, _, rfl⟩)
          ⟨⟨mod, .enumerated, .here rfl, .inr ⟨rfl, rfl⟩⟩, .inl ⟨id, hi, h4⟩⟩ h9
    · intros; contradiction
  · rw [if_neg hk] at hc
    cases hc
    obtain ⟨id, pre, c, mid', T, h4, h5, h6, h7, h8, h9⟩ := alias_run h1 hr
    rw [enumImport] at h5
    · cases h5
      cases h7
      cases fuel with
      | zero => rw [typeAsString] at h6; cases h6
      | succ f =>
        rw [typeAsString] at h6
        · cases h6
          obtain ⟨l, i, hl, hi, rfl⟩ := denote_lib h8
          exact right_last (T := .leaf l i) (.refl _ _) (by simp) ⟨⟨mod, k, .here rfl, .inl hl⟩, .inl ⟨id, hi, h4⟩⟩ h9
        · exact hk
    · intros; contradiction

theorem enumImport_ok {lib : Lib} {tree : Tree} {fuel : Nat} {mod : Module} {m : Option Name} {ref : Name} {ps : List AType} {pre : List Decl} {env mid : Env}
    (h : enumImport tree fuel mod (.defined m ref ps) = .ok pre) (hr : Decl.runAll lib mod.name env pre = .ok mid) :
    mid = env ∨ ∃ r new, resolveDefined tree mod.name fuel mod.name m ref = .ok r ∧ r.type = .leaf .enumerated ∧
      SpaceStep mod.name env mid new ∧ ∀ p ∈ new, p.2 = .enum ∧ ∃ q, p.1 = q ++ "Values" := by
  rw [enumImport] at h
  obtain ⟨r, h1, h⟩ := Res.bind_eq_ok.1 h
  split at h
  · rename_i he
    cases h
    split at hr
    · cases hr; exact .inl rfl
    · have h2 := runAll_single hr
      rw [Decl.run] at h2
      obtain ⟨_, _, h3⟩ := Res.bind_eq_ok.1 h2
      exact .inr ⟨r, _, h1, he, (declare_ok h3).2, by simp only [List.mem_singleton, forall_eq]; exact ⟨trivial, _, rfl⟩⟩
  · cases h
    cases hr
    exact .inl rfl

/-- A reference. -/
theorem defined_right {lib : Lib} {tree : Tree} (hS : Supported tree) {fuel : Nat} {mod : Module} (hm : mod ∈ tree.modules) {m : Option Name} {ref : Name} {ps : List AType}
    {name : Name} {path : Option Name} {ov : Option CId} {env env' : Env} {ds : List Decl} (hoc : Occurs tree mod (.defined m ref ps))
    (hI : Inv lib tree env.spaces) (hsc : ScopesOk mod env.scopes)
    (hc : createType tree fuel mod (.defined m ref ps) name path ov = .ok ds) (hr : Decl.runAll lib mod.name env ds = .ok env') :
    Right lib tree fuel mod (.defined m ref ps) name ov env env' := by
  rw [createType] at hc
  obtain ⟨id, pre, c, mid, T, h4, h5, h6, h7, h8, h9⟩ := alias_run hc hr
  cases fuel with
  | zero => rw [typeAsString] at h6; cases h6
  | succ f =>
    rw [typeAsString] at h6
    obtain ⟨r, h10, h6⟩ := Res.bind_eq_ok.1 h6
    obtain ⟨hst, hu, wm, hcore⟩ := resolveDefined_core hS hoc h10
    have htarget : ∃ w t, target tree mod m ref = some (w, t) ∧ Core tree w t wm (untag r.type) := by
      generalize untag r.type = u at hcore
      cases hcore with
      | here h => cases h
      | reference ht hc => exact ⟨_, _, ht, hc⟩
    obtain ⟨w, t, ht, hct⟩ := htarget
    have hmid : mid = env ∨ (untag r.type = .leaf .enumerated ∧ ∃ new, SpaceStep mod.name env mid new ∧ ∀ p ∈ new, p.2 = .enum ∧ ∃ q, p.1 = q ++ "Values") := by
      rcases enumImport_ok h5 h7 with h | ⟨r', new, h1, h2, h3, h4⟩
      · exact .inl h
      · obtain ⟨_, _, wm', hcore'⟩ := resolveDefined_core hS hoc h1
        rw [h2] at hcore'
        exact .inr ⟨(hcore.unique hcore').2, new, h3, h4⟩
    rw [isGenerated_untag] at h6
    split at h6
    · rename_i hgen
      cases h6
      rcases hmid with rfl | ⟨he, _⟩
      · rw [CppTy.denote] at h8
        have he := hI.ref hS ht (needType_ok h8)
        refine right_last (.refl _ _) (by simp) ⟨he.1.of_core fun _ _ => .reference ht, .inr ⟨⟨⟨m, ref, ps, rfl⟩, wm, _, hcore, hgen⟩, fun hl => ?_⟩⟩ h9
        obtain ⟨ts, ho, hts⟩ := he.2 fun h => hl (.reference ht h)
        exact ⟨ts, .reference ht ho, hts⟩
      · rw [he] at hgen; cases hgen
    · rename_i hgen
      have hgen' : isStruct (untag r.type) = false := by simpa using hgen
      rcases typeAsString_untag hu hgen' h6 with ⟨k, hk, _, rfl⟩ | ⟨v, hk, rfl⟩ | ⟨hlist, rfl⟩
      · obtain ⟨l, i, hl, hi, rfl⟩ := denote_lib h8
        rw [hk] at hcore
        have hmade : Made_emit lib tree (f + 1) mod (.defined m ref ps) ov (.leaf l i) := ⟨⟨wm, k, hcore, .inl hl⟩, .inl ⟨id, hi, h4⟩⟩
        rcases hmid with rfl | ⟨_, new, hstep, hnew⟩
        · exact right_last (.refl _ _) (by simp) hmade h9
        · exact right_last hstep hnew hmade h9
      · obtain ⟨i, hi, rfl⟩ := denote_enum h8
        rw [hk] at hcore
        have hmade : Made_emit lib tree (f + 1) mod (.defined m ref ps) ov (.leaf .enum i) := ⟨⟨wm, .enumerated, hcore, .inr ⟨rfl, rfl⟩⟩, .inl ⟨id, hi, h4⟩⟩
        rcases hmid with rfl | ⟨_, new, hstep, hnew⟩
        · exact right_last (.refl _ _) (by simp) hmade h9
        · exact right_last hstep hnew hmade h9
      · obtain ⟨i, E, hE, hi, rfl⟩ := denote_seqOf h8
        have hmid' : mid = env := by
          rcases hmid with h | ⟨he, _⟩
          · exact h
          · rw [he] at hlist; cases hlist
        subst hmid'
        have hhere := hS.foreignLists _ _ _ _ _ _ hoc hcore hlist
        obtain ⟨hw, hwn, a, ha, han, hab⟩ := target_mem ht
        have hwm : w = mod := pairwise_unique hS.modules hw hm (by rw [hwn, hhere])
        subst hwm
        by_cases htag : hasTag r.type = true
        · rw [if_pos htag] at hE
          have he : ("" : Name) ++ "Contained" = "Contained" := by decide
          rw [he, find_space] at hE
          · exact absurd hE (hI.contained_none hS)
          · intro s hs
            rw [lookup_none_iff]
            intro b hb
            exact (hsc s hs _ hb).1 rfl
        · rw [if_neg htag, find_space] at hE
          · rw [← han] at hE
            obtain ⟨u, hu1, hent⟩ := hI.element hS hm ha hab hE
            have hocw : Occurs tree w t := .assigned hm ha hab
            have hcase : (∃ n s, untag t = .seqOf n u s) ∨ ∃ n s, untag t = .setOf n u s := by
              simp only [elemAt] at hu1
              split at hu1
              · rename_i h; cases hu1; exact .inl ⟨_, _, h⟩
              · rename_i h; cases hu1; exact .inr ⟨_, _, h⟩
              · cases hu1
            have hnd : ∀ m ref ps, untag t ≠ .defined m ref ps := by
              intro m ref ps h
              rcases hcase with ⟨n, s, h'⟩ | ⟨n, s, h'⟩ <;> (rw [h] at h'; cases h')
            have hcw := core_untag (tree := tree) (mod := w) t hnd
            have hoccw := occurs_core hcw hocw
            have hhead : E.Head tree w u := by
              refine hent.2 ?_
              rcases hcase with ⟨n, s, h'⟩ | ⟨n, s, h'⟩
              · rw [h'] at hoccw; exact hS.elements _ _ _ _ hoccw
              · rw [h'] at hoccw; exact hS.setElements _ _ _ _ hoccw
            refine right_last (T := .seqOf i E) (.refl _ _) (by simp) ⟨?_, .inl ⟨id, hi, h4⟩⟩ h9
            rcases hcase with ⟨n, s, h'⟩ | ⟨n, s, h'⟩
            · rw [h'] at hcw
              exact ⟨w, n, u, s, .inl (.reference ht hcw), .inl ⟨hent.1, hhead⟩⟩
            · rw [h'] at hcw
              exact ⟨w, n, u, s, .inr (.reference ht hcw), .inl ⟨hent.1, hhead⟩⟩
          · rw [← han]
            exact hsc.none ha

/-- SEQUENCE OF and SET OF, given what is declared for the elements. -/
theorem list_right {lib : Lib} {tree : Tree} (hS : Supported tree) {fuel : Nat} {mod : Module} {t u : AType} {n : Option Name} {s : Storage}
    (ht : t = .seqOf n u s ∨ t = .setOf n u s) {name : Name} {ov : Option CId} {env mid env' : Env} {es : List Decl} (hoc : Occurs tree mod t)
    (h1 : Right lib tree fuel mod u (name ++ "Contained") none env mid)
    (hc : createAlias tree fuel mod name ov t = .ok es) (hr : Decl.runAll lib mod.name mid es = .ok env') :
    Right lib tree fuel mod t name ov env env' := by
  obtain ⟨new, E, hstep, hnames, hmade⟩ := h1
  have hocu : Occurs tree mod u := by
    rcases ht with rfl | rfl
    · exact .seqOf hoc
    · exact .setOf hoc
  have hent := hmade.entry hS hocu
  have hlost : ¬ Lost tree mod u := by
    rcases ht with rfl | rfl
    · exact hS.elements _ _ _ _ hoc
    · exact hS.setElements _ _ _ _ hoc
  obtain ⟨id, pre, c, mid', T, h4, h5, h6, h7, h8, h9⟩ := alias_run hc hr
  have hpre : pre = [] := by
    rcases ht with rfl | rfl
    · rw [enumImport] at h5
      · cases h5; rfl
      · intros; contradiction
    · rw [enumImport] at h5
      · cases h5; rfl
      · intros; contradiction
  subst hpre
  cases h7
  have hcpp : c = .seqOf (name ++ "Contained") id := by
    cases fuel with
    | zero => rw [typeAsString] at h6; cases h6
    | succ f => rcases ht with rfl | rfl <;> (rw [typeAsString] at h6; cases h6; rfl)
  subst hcpp
  obtain ⟨i, E', hE, hi, rfl⟩ := denote_seqOf h8
  have hEE : E' = E := by
    rw [find_cur (hstep.seen _ hnames.type)] at hE
    cases hE; rfl
  subst hEE
  refine ⟨_, .seqOf i E', hstep.trans (declare_ok h9).2, ⟨by simp, ?_, ?_⟩, ?_, .inl ⟨id, hi, h4⟩⟩
  · intro q T' h
    rcases List.mem_append.1 h with h | h
    · cases List.mem_singleton.1 h
      exact ⟨0, t, rfl, rfl, fun _ => rfl, fun h => absurd h (Nat.lt_irrefl 0)⟩
    · obtain ⟨k, v, h10, h11, h12, h13⟩ := hnames.types _ _ h
      refine ⟨k + 1, v, by rw [h10, contained_succ], ?_, fun h => (Nat.succ_ne_zero _ h).elim, fun _ => ?_⟩
      · rcases ht with rfl | rfl <;> exact h11
      · cases k with
        | zero =>
          rw [h12 rfl]
          cases h11
          exact hent
        | succ k => exact h13 (Nat.succ_pos k)
  · intro q h
    rcases List.mem_append.1 h with h | h
    · cases List.mem_singleton.1 h
    · exact hnames.enums _ h
  · rcases ht with rfl | rfl
    · exact ⟨mod, n, u, s, .inl (.here rfl), .inl ⟨hent.1, hent.2 hlost⟩⟩
    · exact ⟨mod, n, u, s, .inr (.here rfl), .inl ⟨hent.1, hent.2 hlost⟩⟩

/-- A tagged type, given what is declared for the type under the tag. -/
theorem prefixed_right {lib : Lib} {tree : Tree} {fuel : Nat} {mod : Module} {c : Cls} {n : Nat} {k : TagMode} {t : AType}
    {name : Name} {ov : Option CId} {id : CId} {env env' : Env} (hid : Chosen tree fuel mod (.prefixed c n k t) ov id)
    (h : Right lib tree fuel mod t name (some id) env env') : Right lib tree fuel mod (.prefixed c n k t) name ov env env' := by
  obtain ⟨new, T, hstep, hnames, hmade⟩ := h
  refine ⟨new, T, hstep, ⟨hnames.type, ?_, hnames.enums⟩, hmade.1.of_core fun _ _ => .prefixed, ?_⟩
  · intro q T' h
    obtain ⟨k', u, h1, h2, h3, h4⟩ := hnames.types _ _ h
    cases k' with
    | zero => exact ⟨0, _, h1, rfl, h3, fun h => absurd h (Nat.lt_irrefl 0)⟩
    | succ k' => exact ⟨k' + 1, u, h1, by rw [← h2]; rfl, h3, h4⟩
  · rcases hmade.2 with ⟨id', h1, h2⟩ | ⟨⟨⟨m, ref, ps, h1⟩, wm, u, h2, h3⟩, _⟩
    · cases h2
      exact .inl ⟨id, h1, hid⟩
    · exact .inr ⟨⟨⟨m, ref, ps, h1⟩, wm, u, .prefixed h2, h3⟩, fun hl => absurd (.tagged h1 h2 h3) hl⟩

/-- A struct is one declaration. -/
theorem struct_right {lib : Lib} {tree : Tree} {fuel : Nat} {mod : Module} {t : AType} {name : Name} {ov : Option CId} {env env' : Env} {T : Ty}
    (hT : Made_emit lib tree fuel mod t ov T) (hd : env.declare mod.name name (.type T) = .ok env') : Right lib tree fuel mod t name ov env env' :=
  right_last (.refl _ _) (by simp) hT hd

theorem prefixed_chosen {tree : Tree} (hS : Supported tree) {fuel : Nat} {mod : Module} {c : Cls} {n : Nat} {k : TagMode} {t : AType} {ov : Option CId} {id : CId}
    (hoc : Occurs tree mod (.prefixed c n k t)) (hov : ∀ id, ov = some id → id.list ≠ []) (h : Chosen tree fuel mod (.prefixed c n k t) ov id) : id.list ≠ [] := by
  cases ov with
  | some id' => cases h; exact hov _ rfl
  | none =>
    unfold Chosen overrideOr at h
    obtain ⟨i, h1, h2⟩ := Res.bind_eq_ok.1 h
    cases h2
    obtain ⟨ts, ho, hf⟩ := identifier_own (hS.tags _ _ hoc) h1
    rw [hf.list]
    cases ho <;> simp

/-- The components' types are declared. -/
def RightAll (lib : Lib) (tree : Tree) (fuel : Nat) (mod : Module) (parent : Name) (i : Nat) (cs : List Comp) (env env' : Env) : Prop :=
  ∃ new, SpaceStep mod.name env env' new ∧ AllDeclared lib tree fuel mod env' parent i cs

/-- The alternatives' types are declared. -/
def RightAlts (lib : Lib) (tree : Tree) (fuel : Nat) (mod : Module) (i : Nat) (as : List Named) (env env' : Env) : Prop :=
  ∃ new, SpaceStep mod.name env env' new ∧ AltsDeclared lib tree fuel mod env' i as

theorem Declared.kept {lib : Lib} {tree : Tree} {fuel : Nat} {mod : Module} {env env' : Env} {i : Nat} {name : Name} {t : AType}
    (h : Declared lib tree fuel mod env i name t) {new : List (Name × Ent)} (hs : SpaceStep mod.name env env' new) :
    Declared lib tree fuel mod env' i name t := by
  obtain ⟨T, h1, h2⟩ := h
  exact ⟨T, hs.kept _ _ h1, h2⟩

/-- After the declarations of a component the scope still has no name an element type could be taken for. -/
theorem scopes_after {lib : Lib} {tree : Tree} (hS : Supported tree) {mod : Module} (hm : mod ∈ tree.modules) {n parent : Name} {t : AType}
    (hf : Spec.Field tree mod n t) {T : Ty} {new : List (Name × Ent)} (hn : Names lib tree mod t (makeTypeName n parent) T new) {env env' : Env}
    (hs : SpaceStep mod.name env env' new) (hne : env.scopes ≠ []) (hsc : ScopesOk mod env.scopes) :
    env'.scopes ≠ [] ∧ env'.spaces = env.spaces ∧ ScopesOk mod env'.scopes := by
  cases hscopes : env.scopes with
  | nil => exact absurd hscopes hne
  | cons s ss =>
    obtain ⟨h1, h2⟩ := hs.scopes hscopes
    refine ⟨by rw [h1]; simp, h2, ?_⟩
    rw [h1]
    rw [hscopes] at hsc
    intro s' hs' p hp
    rcases List.mem_cons.1 hs' with h | h
    · subst h
      rcases List.mem_append.1 hp with h3 | h3
      · exact hn.scope hS hm hf p h3
      · exact hsc s List.mem_cons_self p h3
    · exact hsc s' (List.mem_cons_of_mem _ h) p hp

mutual
theorem createType_right {lib : Lib} {tree : Tree} (hS : Supported tree) (fuel : Nat) {mod : Module} (hm : mod ∈ tree.modules) :
    ∀ (t : AType) (name : Name) (path : Option Name) (ov : Option CId) (env env' : Env) (ds : List Decl), Occurs tree mod t →
    Inv lib tree env.spaces → ScopesOk mod env.scopes → (∀ id, ov = some id → id.list ≠ []) →
    createType tree fuel mod t name path ov = .ok ds → Decl.runAll lib mod.name env ds = .ok env' → Right lib tree fuel mod t name ov env env'
  | .leaf k, name, path, ov, env, env', ds, hoc, hI, hsc, hov, hc, hr => leaf_right hc hr
  | .objField m c fs, name, path, ov, env, env', ds, hoc, hI, hsc, hov, hc, hr => by
    have := hS.tags _ _ hoc
    cases this
  | .defined m ref ps, name, path, ov, env, env', ds, hoc, hI, hsc, hov, hc, hr => defined_right hS hm hoc hI hsc hc hr
  | .prefixed c n k t, name, path, ov, env, env', ds, hoc, hI, hsc, hov, hc, hr => by
    rw [createType] at hc
    obtain ⟨id, h1, h2⟩ := Res.bind_eq_ok.1 hc
    exact prefixed_right h1 (createType_right hS fuel hm t name path (some id) env env' ds (.prefixed hoc) hI hsc
      (fun id' h => by cases h; exact prefixed_chosen hS hoc hov h1) h2 hr)
  | .seqOf n u s, name, path, ov, env, env', ds, hoc, hI, hsc, hov, hc, hr => by
    rw [createType] at hc
    obtain ⟨ds', h1, hc⟩ := Res.bind_eq_ok.1 hc
    obtain ⟨es, h2, hc⟩ := Res.bind_eq_ok.1 hc
    cases hc
    obtain ⟨mid, h3, h4⟩ := runAll_append hr
    exact list_right hS (.inl rfl) hoc (createType_right hS fuel hm u _ _ none env mid ds' (.seqOf hoc) hI hsc (fun _ h => by cases h) h1 h3) h2 h4
  | .setOf n u s, name, path, ov, env, env', ds, hoc, hI, hsc, hov, hc, hr => by
    rw [createType] at hc
    obtain ⟨ds', h1, hc⟩ := Res.bind_eq_ok.1 hc
    obtain ⟨es, h2, hc⟩ := Res.bind_eq_ok.1 hc
    cases hc
    obtain ⟨mid, h3, h4⟩ := runAll_append hr
    exact list_right hS (.inr rfl) hoc (createType_right hS fuel hm u _ _ none env mid ds' (.setOf hoc) hI hsc (fun _ h => by cases h) h1 h3) h2 h4
  | .set cs ext, name, path, ov, env, env', ds, hoc, hI, hsc, hov, hc, hr => by
    rw [createType] at hc
    obtain ⟨_, _, hc⟩ := Res.bind_eq_ok.1 hc
    obtain ⟨inner, h2, hc⟩ := Res.bind_eq_ok.1 hc
    obtain ⟨ms, h3, hc⟩ := Res.bind_eq_ok.1 hc
    obtain ⟨id, h4, hc⟩ := Res.bind_eq_ok.1 hc
    cases hc
    have hr := runAll_single hr
    rw [Decl.run] at hr
    obtain ⟨env1, h5, hr⟩ := Res.bind_eq_ok.1 hr
    obtain ⟨_, _, hr⟩ := Res.bind_eq_ok.1 hr
    obtain ⟨fs, h6, hr⟩ := Res.bind_eq_ok.1 hr
    obtain ⟨i, h7, hr⟩ := Res.bind_eq_ok.1 hr
    rw [if_pos rfl] at hr
    obtain ⟨_, _, hr⟩ := Res.bind_eq_ok.1 hr
    have hcs : ∀ c ∈ cs, Occurs tree mod c.type ∧ Spec.Field tree mod c.name c.type := fun c h => ⟨.set hoc h, .set hoc h⟩
    have hin := createComponents_right hS fuel hm cs name 0 env.enter env1 inner hcs hI
      (fun s hs p hp => by
        rcases List.mem_cons.1 hs with h | h
        · subst h; cases hp
        · exact hsc s h p hp) (by simp [Env.enter]) h2 h5
    obtain ⟨_, _, hdecl⟩ := hin
    refine struct_right (T := .set i ext fs) ⟨⟨mod, cs, .here rfl, ?_⟩, .inl ⟨id, need_ok h7, h4⟩⟩ hr
    rw [slots_from fun ha c h => hS.autoUntagged _ _ _ (.set hoc h) ha]
    exact members_body hS cs 0 ms fs hcs (fun h => by cases h) h3 h6 hdecl
  | .sequence cs ext, name, path, ov, env, env', ds, hoc, hI, hsc, hov, hc, hr => by
    rw [createType] at hc
    obtain ⟨_, _, hc⟩ := Res.bind_eq_ok.1 hc
    obtain ⟨inner, h2, hc⟩ := Res.bind_eq_ok.1 hc
    obtain ⟨ms, h3, hc⟩ := Res.bind_eq_ok.1 hc
    obtain ⟨id, h4, hc⟩ := Res.bind_eq_ok.1 hc
    cases hc
    have hr := runAll_single hr
    rw [Decl.run] at hr
    obtain ⟨env1, h5, hr⟩ := Res.bind_eq_ok.1 hr
    obtain ⟨_, _, hr⟩ := Res.bind_eq_ok.1 hr
    obtain ⟨fs, h6, hr⟩ := Res.bind_eq_ok.1 hr
    obtain ⟨i, h7, hr⟩ := Res.bind_eq_ok.1 hr
    rw [if_neg Bool.false_ne_true] at hr
    have hcs : ∀ c ∈ cs, Occurs tree mod c.type ∧ Spec.Field tree mod c.name c.type := fun c h => ⟨.sequence hoc h, .sequence hoc h⟩
    have hin := createComponents_right hS fuel hm cs name 0 env.enter env1 inner hcs hI
      (fun s hs p hp => by
        rcases List.mem_cons.1 hs with h | h
        · subst h; cases hp
        · exact hsc s h p hp) (by simp [Env.enter]) h2 h5
    obtain ⟨_, _, hdecl⟩ := hin
    refine struct_right (T := .seq i fs) ⟨⟨mod, cs, ext, .here rfl, ?_⟩, .inl ⟨id, need_ok h7, h4⟩⟩ hr
    rw [slots_from fun ha c h => hS.autoUntagged _ _ _ (.sequence hoc h) ha]
    exact members_body hS cs 0 ms fs hcs (fun _ ha c h => hS.autoMandatory _ _ _ _ hoc ha h) h3 h6 hdecl
  | .choice as s, name, path, ov, env, env', ds, hoc, hI, hsc, hov, hc, hr => by
    rw [createType] at hc
    obtain ⟨id, h4, hc⟩ := Res.bind_eq_ok.1 hc
    obtain ⟨inner, h2, hc⟩ := Res.bind_eq_ok.1 hc
    obtain ⟨ms, h3, hc⟩ := Res.bind_eq_ok.1 hc
    cases hc
    have hr := runAll_single hr
    rw [Decl.run] at hr
    obtain ⟨env1, h5, hr⟩ := Res.bind_eq_ok.1 hr
    obtain ⟨_, _, hr⟩ := Res.bind_eq_ok.1 hr
    obtain ⟨fs, h6, hr⟩ := Res.bind_eq_ok.1 hr
    obtain ⟨_, _, hr⟩ := Res.bind_eq_ok.1 hr
    have hcs : ∀ a ∈ as, Occurs tree mod a.type ∧ Spec.Field tree mod a.name a.type := fun c h => ⟨.choice hoc h, .choice hoc h⟩
    have hin := createChoices_right hS fuel hm as 0 env.enter env1 inner hcs hI
      (fun s hs p hp => by
        rcases List.mem_cons.1 hs with h | h
        · subst h; cases hp
        · exact hsc s h p hp) (by simp [Env.enter]) h2 h5
    obtain ⟨_, _, hdecl⟩ := hin
    have hb := alts_body hS as 0 ms fs hcs h3 h6 hdecl
    have hut : mod.tagging = .automatic → ∀ a ∈ as, hasTag a.type = false := fun ha a h => hS.autoUntagged _ _ _ (.choice hoc h) ha
    refine struct_right (T := .choice id.choiceIdent fs) ⟨⟨mod, as, s, .here rfl, by rw [choices_from hut]; exact hb, ?_⟩, .inl ⟨id, rfl, h4⟩⟩ hr
    cases ov with
    | some id' =>
      cases h4
      have := hov _ rfl
      cases id with
      | single => trivial
      | double => trivial
      | choice l => exact absurd rfl this
    | none =>
      obtain ⟨ids, rfl, h8⟩ := choice_cid hS hoc hb h4
      exact h8
theorem createComponents_right {lib : Lib} {tree : Tree} (hS : Supported tree) (fuel : Nat) {mod : Module} (hm : mod ∈ tree.modules) :
    ∀ (cs : List Comp) (parent : Name) (i : Nat) (env env' : Env) (ds : List Decl),
    (∀ c ∈ cs, Occurs tree mod c.type ∧ Spec.Field tree mod c.name c.type) →
    Inv lib tree env.spaces → ScopesOk mod env.scopes → env.scopes ≠ [] →
    createComponents tree fuel mod parent i cs = .ok ds → Decl.runAll lib mod.name env ds = .ok env' → RightAll lib tree fuel mod parent i cs env env'
  | [], parent, i, env, env', ds, _, hI, hsc, hne, hc, hr => by
    rw [createComponents] at hc
    cases hc
    cases hr
    exact ⟨[], .refl _ _, trivial⟩
  | .mk n t o d co st :: cs, parent, i, env, env', ds, hcs, hI, hsc, hne, hc, hr => by
    rw [createComponents] at hc
    obtain ⟨ds', h1, hc⟩ := Res.bind_eq_ok.1 hc
    obtain ⟨es, h2, hc⟩ := Res.bind_eq_ok.1 hc
    cases hc
    obtain ⟨mid, h3, h4⟩ := runAll_append hr
    obtain ⟨ho, hf⟩ := hcs _ List.mem_cons_self
    obtain ⟨new, T, hstep, hnames, hmade⟩ := createType_right hS fuel hm t _ _ (autoOverride mod i) env mid ds' ho hI hsc (fun _ h => autoOverride_ne h) h1 h3
    obtain ⟨h5, h6, h7⟩ := scopes_after hS hm hf hnames hstep hne hsc
    obtain ⟨new', hstep', hdecl⟩ := createComponents_right hS fuel hm cs parent (i + 1) mid env' es
      (fun c h => hcs c (List.mem_cons_of_mem _ h)) (by rw [h6]; exact hI) h7 h5 h2 h4
    exact ⟨_, hstep.trans hstep', Declared.kept ⟨T, hstep.seen _ hnames.type, hmade⟩ hstep', hdecl⟩
theorem createChoices_right {lib : Lib} {tree : Tree} (hS : Supported tree) (fuel : Nat) {mod : Module} (hm : mod ∈ tree.modules) :
    ∀ (as : List Named) (i : Nat) (env env' : Env) (ds : List Decl),
    (∀ a ∈ as, Occurs tree mod a.type ∧ Spec.Field tree mod a.name a.type) →
    Inv lib tree env.spaces → ScopesOk mod env.scopes → env.scopes ≠ [] →
    createChoices tree fuel mod i as = .ok ds → Decl.runAll lib mod.name env ds = .ok env' → RightAlts lib tree fuel mod i as env env'
  | [], i, env, env', ds, _, hI, hsc, hne, hc, hr => by
    rw [createChoices] at hc
    cases hc
    cases hr
    exact ⟨[], .refl _ _, trivial⟩
  | .mk n t :: cs, i, env, env', ds, hcs, hI, hsc, hne, hc, hr => by
    rw [createChoices] at hc
    obtain ⟨ds', h1, hc⟩ := Res.bind_eq_ok.1 hc
    obtain ⟨es, h2, hc⟩ := Res.bind_eq_ok.1 hc
    cases hc
    obtain ⟨mid, h3, h4⟩ := runAll_append hr
    obtain ⟨ho, hf⟩ := hcs _ List.mem_cons_self
    obtain ⟨new, T, hstep, hnames, hmade⟩ := createType_right hS fuel hm t _ _ (autoOverride mod i) env mid ds' ho hI hsc (fun _ h => autoOverride_ne h) h1 h3
    obtain ⟨h5, h6, h7⟩ := scopes_after hS hm hf hnames hstep hne hsc
    obtain ⟨new', hstep', hdecl⟩ := createChoices_right hS fuel hm cs (i + 1) mid env' es
      (fun c h => hcs c (List.mem_cons_of_mem _ h)) (by rw [h6]; exact hI) h7 h5 h2 h4
    exact ⟨_, hstep.trans hstep', Declared.kept ⟨T, hstep.seen _ hnames.type, hmade⟩ hstep', hdecl⟩
end

/-! ## Assignments and modules -/

/-- What is declared in a namespace stays. -/
theorem SpaceStep.lookup {here : Name} {env env' : Env} {new : List (Name × Ent)} (h : SpaceStep here env env' new) (hs : env.scopes = []) {m n : Name} {e : Ent}
    (hl : env.spaces.lookup (m, n) = some e) : env'.spaces.lookup (m, n) = some e := by
  obtain ⟨h1, h2⟩ := h.spaces hs
  by_cases hm : m = here
  · subst hm
    have := h.kept n e (by unfold Env.cur; rw [hs]; exact hl)
    unfold Env.cur at this
    rw [h1] at this
    exact this
  · rw [h2]
    have : ∀ l : List (Name × Ent), (l.map (fun p => ((here, p.1), p.2)) ++ env.spaces).lookup (m, n) = some e := by
      intro l
      induction l with
      | nil => exact hl
      | cons p l ih =>
        rw [List.map_cons, List.cons_append, List.lookup_cons]
        have : ((m, n) == (here, p.1)) = false := by simp [hm]
        rw [this]
        exact ih
    exact this new

theorem runBody_inv {lib : Lib} {tree : Tree} (hS : Supported tree) {fuel : Nat} {mod : Module} (hm : mod ∈ tree.modules) :
    ∀ (as : List Assignment) (env env' : Env), (∀ a ∈ as, a ∈ mod.assignments) → env.scopes = [] → Inv lib tree env.spaces →
    runBody lib tree fuel mod env as = .ok env' →
    env'.scopes = [] ∧ Inv lib tree env'.spaces ∧ (∀ m n e, env.spaces.lookup (m, n) = some e → env'.spaces.lookup (m, n) = some e) ∧
      ∀ a ∈ as, ∀ t, a.body = .type t → ∃ T, env'.spaces.lookup (mod.name, a.name) = some (.type T)
  | [], env, env', _, hsc, hI, h => by
    rw [runBody] at h
    cases h
    exact ⟨hsc, hI, fun _ _ _ h => h, fun _ h => by cases h⟩
  | a :: as, env, env', has, hsc, hI, h => by
    rw [runBody] at h
    obtain ⟨ds, h1, h⟩ := Res.bind_eq_ok.1 h
    obtain ⟨mid, h2, h⟩ := Res.bind_eq_ok.1 h
    have ha := has a List.mem_cons_self
    have key : mid.scopes = [] ∧ Inv lib tree mid.spaces ∧ (∀ m n e, env.spaces.lookup (m, n) = some e → mid.spaces.lookup (m, n) = some e) ∧
        ∀ t, a.body = .type t → ∃ T, mid.spaces.lookup (mod.name, a.name) = some (.type T) := by
      unfold createAssignment at h1
      split at h1
      · rename_i t hb
        obtain ⟨new, T, hstep, hnames, hmade⟩ := createType_right hS fuel hm t a.name _ none env mid ds (.assigned hm ha hb) hI
          (by rw [hsc]; intro s hs; cases hs) (fun _ h => by cases h) h1 h2
        obtain ⟨h3, h4⟩ := hstep.spaces hsc
        refine ⟨h3, ?_, fun m n e hl => hstep.lookup hsc hl, fun t' _ => ⟨T, ?_⟩⟩
        · intro m n T' hmem
          rw [h4] at hmem
          rcases List.mem_append.1 hmem with hmem | hmem
          · obtain ⟨⟨q, e⟩, hq, he⟩ := List.mem_map.1 hmem
            cases he
            obtain ⟨k, u, h5, h6, h7, h8⟩ := hnames.types _ _ hq
            refine ⟨mod, a, t, k, u, hm, rfl, ha, hb, h5, h6, ?_⟩
            cases k with
            | zero =>
              cases h6
              rw [h7 rfl]
              exact hmade.entry hS (.assigned hm ha hb)
            | succ k => exact h8 (Nat.succ_pos k)
          · exact hI _ _ _ hmem
        · have := hstep.seen _ hnames.type
          unfold Env.cur at this
          rw [h3] at this
          exact this
      · rename_i hb
        cases h1
        cases h2
        exact ⟨hsc, hI, fun _ _ _ h => h, fun t h => by rw [hb] at h; cases h⟩
      · cases h1
      · rename_i hb
        cases h1
        cases h2
        exact ⟨hsc, hI, fun _ _ _ h => h, fun t h => by rw [hb] at h; cases h⟩
    obtain ⟨k1, k2, k3, k4⟩ := key
    obtain ⟨r1, r2, r3, r4⟩ := runBody_inv hS hm as mid env' (fun b hb => has b (List.mem_cons_of_mem _ hb)) k1 k2 h
    refine ⟨r1, r2, fun m n e h => r3 m n e (k3 m n e h), fun b hb t ht => ?_⟩
    rcases List.mem_cons.1 hb with hb | hb
    · subst hb
      obtain ⟨T, hT⟩ := k4 t ht
      exact ⟨T, r3 _ _ _ hT⟩
    · exact r4 b hb t ht

theorem runModules_inv {lib : Lib} {tree : Tree} (hS : Supported tree) {fuel : Nat} :
    ∀ (ms : List Module) (env env' : Env), (∀ m ∈ ms, m ∈ tree.modules) → env.scopes = [] → Inv lib tree env.spaces →
    runModules lib tree fuel env ms = .ok env' →
    Inv lib tree env'.spaces ∧ (∀ m n e, env.spaces.lookup (m, n) = some e → env'.spaces.lookup (m, n) = some e) ∧
      ∀ mod ∈ ms, ∀ a ∈ mod.assignments, ∀ t, a.body = .type t → ∃ T, env'.spaces.lookup (mod.name, a.name) = some (.type T)
  | [], env, env', _, hsc, hI, h => by
    rw [runModules] at h
    cases h
    exact ⟨hI, fun _ _ _ h => h, fun _ h => by cases h⟩
  | m :: ms, env, env', hms, hsc, hI, h => by
    rw [runModules] at h
    obtain ⟨mid, h1, h2⟩ := Res.bind_eq_ok.1 h
    obtain ⟨k1, k2, k3, k4⟩ := runBody_inv hS (hms m List.mem_cons_self) m.assignments env mid (fun _ h => h) hsc hI h1
    obtain ⟨r1, r2, r3⟩ := runModules_inv hS ms mid env' (fun b hb => hms b (List.mem_cons_of_mem _ hb)) k1 k2 h2
    refine ⟨r1, fun m n e h => r2 m n e (k3 m n e h), fun b hb a ha t ht => ?_⟩
    rcases List.mem_cons.1 hb with hb | hb
    · subst hb
      obtain ⟨T, hT⟩ := k4 a ha t ht
      exact ⟨T, r2 _ _ _ hT⟩
    · exact r3 b hb a ha t ht

/-- Every assigned type has a C++ type. -/
theorem generate_exists {lib : Lib} {tree : Tree} (hS : Supported tree) {fuel : Nat} {env : Env} (h : generate lib fuel tree = .ok env)
    {mod : Module} (hm : mod ∈ tree.modules) {a : Assignment} (ha : a ∈ mod.assignments) {t : AType} (hb : a.body = .type t) :
    ∃ T, env.typeOf mod.name a.name = some T := by
  obtain ⟨_, _, h3⟩ := runModules_inv hS tree.modules ⟨[], []⟩ env (fun _ h => h) rfl (fun m n T h => by cases h) h
  obtain ⟨T, hT⟩ := h3 mod hm a ha t hb
  exact ⟨T, by unfold Env.typeOf; rw [hT]⟩

/-- Every assigned type has a C++ type of its structure, and of its tags unless they are lost. -/
theorem generate_entry {lib : Lib} {tree : Tree} (hS : Supported tree) {fuel : Nat} {env : Env} (h : generate lib fuel tree = .ok env)
    {mod : Module} (hm : mod ∈ tree.modules) {a : Assignment} (ha : a ∈ mod.assignments) {t : AType} (hb : a.body = .type t)
    {T : Ty} (hT : env.typeOf mod.name a.name = some T) : Entry lib tree mod t T := by
  obtain ⟨hI, _, _⟩ := runModules_inv hS tree.modules ⟨[], []⟩ env (fun _ h => h) rfl (fun m n T h => by cases h) h
  have hl : env.spaces.lookup (mod.name, a.name) = some (.type T) := by
    unfold Env.typeOf at hT
    split at hT
    · rename_i h; cases hT; exact h
    · cases hT
  obtain ⟨wm', a', t', k, u, hw', hn', ha', hab', hc, hu, he⟩ := hI _ _ _ (lookup_mem hl)
  have h1 : wm' = mod := pairwise_unique hS.modules hw' hm hn'
  subst h1
  cases k with
  | zero =>
    have h2 : a' = a := pairwise_unique (hS.assignments _ hm) ha' ha hc.symm
    subst h2
    rw [hb] at hab'
    cases hab'
    cases hu
    exact he
  | succ k => exact absurd hc ((hS.typeNames _ hm _ ha).2 (contained k a'.name))

end FastBer.Ast
