import Verif.Proofs.RunEmit
/-!
# The declarations of supported, legal, compilable schemas are valid C++: the induction
-/
namespace FastBer.Ast
open Spec FastBer.Props

/-- What the type refers to is there. -/
def Avail (tree : Tree) (mod : Module) (spaces : List ((Name × Name) × Ent)) (t : AType) : Prop :=
  ∀ m ref, Mentioned t m ref → ∀ wm u, target tree mod m ref = some (wm, u) →
    (∃ T, spaces.lookup (wm.name, ref) = some (.type T)) ∧
    (isList u = true → ∃ T, spaces.lookup (wm.name, ref ++ "Contained") = some (.type T)) ∧
    (u = .leaf .enumerated → spaces.lookup (wm.name, ref ++ "Values") = some .enum)

theorem mentioned_child {t u : AType} (h : Child t u) {m : Option Name} {ref : Name} (hm : Mentioned u m ref) : Mentioned t m ref := by
  obtain ⟨ps, hm⟩ := hm
  refine ⟨ps, .inr ?_⟩
  rcases hm with rfl | hm
  · exact .single h
  · exact Relation.TransGen.trans (.single h) hm

theorem Avail.child {tree : Tree} {mod : Module} {spaces : List ((Name × Name) × Ent)} {t u : AType} (h : Avail tree mod spaces t) (hc : Child t u) :
    Avail tree mod spaces u := fun m ref hm => h m ref (mentioned_child hc hm)

/-- What running the declarations gives. -/
def RunOk (lib : Lib) (tree : Tree) (mod : Module) (t : AType) (name : Name) (env : Env) (ds : List Decl) : Prop :=
  ∃ env' new, Decl.runAll lib mod.name env ds = .ok env' ∧ SpaceStep mod.name env env' new ∧ (∀ p ∈ new, p.1 ∈ declares tree mod t name) ∧
    (isList t = true → ∃ T, env'.cur mod.name (name ++ "Contained") = some (.type T)) ∧
    (t = .leaf .enumerated → env'.cur mod.name (name ++ "Values") = some .enum)

theorem alias_parts {tree : Tree} {fuel : Nat} {mod : Module} {t : AType} {name : Name} {ov : Option CId} {ds : List Decl}
    (hc : createAlias tree fuel mod name ov t = .ok ds) : ∃ id pre c, Chosen tree fuel mod t ov id ∧ enumImport tree fuel mod t = .ok pre ∧
      typeAsString tree mod fuel name id t = .ok c ∧ ds = pre ++ [.type name c] := by
  unfold createAlias at hc
  obtain ⟨id, h1, hc⟩ := Res.bind_eq_ok.1 hc
  obtain ⟨pre, h2, hc⟩ := Res.bind_eq_ok.1 hc
  obtain ⟨c, h3, hc⟩ := Res.bind_eq_ok.1 hc
  cases hc
  exact ⟨id, pre, c, h1, h2, h3, rfl⟩

/-- Some declarations, then the one of the type. -/
theorem run_alias {lib : Lib} {here : Name} {env mid : Env} {pre : List Decl} {new : List (Name × Ent)} {name : Name} {c : CppTy} {T : Ty}
    (h1 : Decl.runAll lib here env pre = .ok mid) (h2 : SpaceStep here env mid new) (h3 : c.denote lib here mid = .ok T) (h4 : mid.cur here name = none) :
    ∃ env', Decl.runAll lib here env (pre ++ [.type name c]) = .ok env' ∧ SpaceStep here env env' ((name, .type T) :: new) := by
  obtain ⟨env', h5⟩ := declare_total (.type T) h4
  refine ⟨env', runAll_append_ok h1 (runAll_one ?_), h2.trans (declare_ok h5).2⟩
  rw [Decl.run, h3, Res.ok_bind]
  exact h5

theorem known_leaf (lib : Lib) {k : Builtin} (h : known k = true) (hk : k ≠ .enumerated) : ∃ l, lib.leaf k = some l := by
  cases k <;> first | exact ⟨_, rfl⟩ | exact absurd rfl hk | cases h

theorem denote_lib_total {lib : Lib} {here : Name} {env : Env} {k : Builtin} {id : CId} (h : known k = true) (hk : k ≠ .enumerated)
    (hi : ∃ i, id.ident = some i) : ∃ T, (CppTy.lib k id).denote lib here env = .ok T := by
  obtain ⟨l, hl⟩ := known_leaf lib h hk
  obtain ⟨i, hi⟩ := hi
  exact ⟨.leaf l i, by rw [CppTy.denote, hl, hi]; rfl⟩

theorem denote_enum_total {lib : Lib} {here v : Name} {env : Env} {id : CId} (h : env.find here v = some .enum)
    (hi : ∃ i, id.ident = some i) : ∃ T, (CppTy.enumerated v id).denote lib here env = .ok T := by
  obtain ⟨i, hi⟩ := hi
  exact ⟨.leaf .enum i, by rw [CppTy.denote, h, hi]; rfl⟩

theorem denote_seqOf_total {lib : Lib} {here v : Name} {env : Env} {id : CId} {E : Ty} (h : env.find here v = some (.type E))
    (hi : ∃ i, id.ident = some i) : ∃ T, (CppTy.seqOf v id).denote lib here env = .ok T := by
  obtain ⟨i, hi⟩ := hi
  exact ⟨.seqOf i E, by rw [CppTy.denote, h, hi]; rfl⟩

theorem leaf_run {lib : Lib} {tree : Tree} (hS : Supported tree) {fuel : Nat} {mod : Module} {k : Builtin} {name : Name} {path : Option Name} {ov : Option CId}
    {env : Env} {ds : List Decl} (ho : Occurs tree mod (.leaf k)) (hov : ∀ id, ov = some id → id.list ≠ [])
    (hnd : (declares tree mod (.leaf k) name).Nodup) (hfr : ∀ n ∈ declares tree mod (.leaf k) name, env.cur mod.name n = none)
    (hc : createType tree fuel mod (.leaf k) name path ov = .ok ds) : RunOk lib tree mod (.leaf k) name env ds := by
  have hk : known k = true := by
    have := hS.tags _ _ ho
    cases this; assumption
  rw [createType] at hc
  obtain ⟨es, h1, hc'⟩ := Res.bind_eq_ok.1 hc
  obtain ⟨id, pre, c, h4, h5, h6, rfl⟩ := alias_parts h1
  have hid := chosen_ident hS ho (.here rfl) (by simp) hov h4
  have hpre : pre = [] := by
    rw [enumImport] at h5
    · exact (Res.ok.inj h5).symm
    · intros; contradiction
  subst hpre
  cases fuel with
  | zero => rw [typeAsString] at h6; cases h6
  | succ f =>
    by_cases he : k = .enumerated
    · subst he
      rw [if_pos rfl] at hc'
      cases hc'
      rw [typeAsString] at h6
      cases h6
      simp only [declares] at hnd hfr
      obtain ⟨mid, h7⟩ := declare_total .enum (hfr (name ++ "Values") (by simp))
      have hstep := (declare_ok h7).2
      have hcur : mid.cur mod.name (name ++ "Values") = some .enum := hstep.seen _ List.mem_cons_self
      obtain ⟨T, hT⟩ := denote_enum_total (lib := lib) (find_cur hcur) hid
      have hfree : mid.cur mod.name name = none := by
        rw [hstep.other]
        · exact hfr name (by simp)
        · intro p hp he
          rw [List.mem_singleton.1 hp] at he
          rw [List.nodup_cons] at hnd
          exact hnd.1 (by rw [show name ++ "Values" = name from he]; simp)
      obtain ⟨env', h8, h9⟩ := run_alias (pre := [.enum (name ++ "Values")]) (runAll_one (by rw [Decl.run]; exact h7)) hstep hT hfree
      refine ⟨env', _, h8, h9, ?_, fun h => by (cases h), fun _ => h9.seen (name ++ "Values", .enum) (by simp)⟩
      intro p hp
      simp only [declares]
      rcases List.mem_cons.1 hp with rfl | hp
      · simp
      · rw [List.mem_singleton.1 hp]; simp
    · rw [if_neg he] at hc'
      cases hc'
      rw [typeAsString] at h6
      · cases h6
        have hdec : declares tree mod (.leaf k) name = [name] := by
          cases k <;> first | rfl | exact absurd rfl he
        rw [hdec] at hfr
        obtain ⟨T, hT⟩ := denote_lib_total (lib := lib) (here := mod.name) (env := env) hk he hid
        obtain ⟨env', h8, h9⟩ := run_alias (pre := []) rfl (.refl _ _) hT (hfr name (by simp))
        refine ⟨env', _, h8, h9, ?_, fun h => by (cases h), fun h => absurd (AType.leaf.inj h) he⟩
        intro p hp
        rw [hdec, List.mem_singleton.1 hp]; simp
      · exact he

/-- A reference that is not resolved further. -/
theorem standsFor_direct {tree : Tree} {M ref n mod' : Name} {t u : AType} (h : StandsFor tree M ref n t mod') (hl : lookup tree M ref = some (.type u))
    (hn : (∃ k, u = .leaf k) ∨ isList u = true) : t = u ∧ mod' = M := by
  cases h with
  | here h _ => rw [hl] at h; cases h; exact ⟨rfl, rfl⟩
  | alias h _ => rw [hl] at h; cases h; rcases hn with ⟨_, h⟩ | h <;> cases h
  | tagged h _ => rw [hl] at h; cases h; rcases hn with ⟨_, h⟩ | h <;> cases h

theorem target_lookup {tree : Tree} {mod wm : Module} {m : Option Name} {ref : Name} {t : AType} (h : target tree mod m ref = some (wm, t)) :
    lookup tree (m.getD mod.name) ref = some (.type t) := by
  unfold target at h
  unfold lookup
  cases h1 : tree.modules.find? (·.name == m.getD mod.name) with
  | none => rw [h1] at h; cases h
  | some w =>
    rw [h1] at h
    simp only [Option.bind_eq_bind, Option.bind_some] at h ⊢
    cases h2 : w.assignments.find? (·.name == ref) with
    | none => rw [h2] at h; cases h
    | some a =>
      rw [h2] at h
      simp only [Option.bind_some] at h
      split at h
      · rename_i t' hb
        cases h
        simp [hb]
      · cases h

theorem defined_run {lib : Lib} {tree : Tree} (hS : Supported tree) (hC : CompilableNames tree) {fuel : Nat} {mod : Module} (hm : mod ∈ tree.modules)
    {m : Option Name} {ref : Name} {ps : List AType} {name : Name} {path : Option Name} {ov : Option CId} {env : Env} {ds : List Decl}
    (ho : Occurs tree mod (.defined m ref ps)) (hsc : ScopesOk mod env.scopes) (hes : EnumScopes env.scopes) (hov : ∀ id, ov = some id → id.list ≠ [])
    (hav : Avail tree mod env.spaces (.defined m ref ps))
    (hnd : (declares tree mod (.defined m ref ps) name).Nodup) (hfr : ∀ n ∈ declares tree mod (.defined m ref ps) name, env.cur mod.name n = none)
    (hc : createType tree fuel mod (.defined m ref ps) name path ov = .ok ds) : RunOk lib tree mod (.defined m ref ps) name env ds := by
  rw [createType] at hc
  obtain ⟨id, pre, c, h4, h5, h6, rfl⟩ := alias_parts hc
  cases fuel with
  | zero => rw [typeAsString] at h6; cases h6
  | succ f =>
    rw [typeAsString] at h6
    obtain ⟨r, h7, h6⟩ := Res.bind_eq_ok.1 h6
    rw [enumImport, resolveDefined_mono_le h7 (by simp) (Nat.le_succ f), Res.ok_bind] at h5
    obtain ⟨hst, hu, wm, hcore⟩ := resolveDefined_core hS ho h7
    have htarget : ∃ w t, target tree mod m ref = some (w, t) ∧ Core tree w t wm (untag r.type) := by
      generalize untag r.type = u at hcore
      cases hcore with
      | here h => cases h
      | reference ht hc => exact ⟨_, _, ht, hc⟩
    obtain ⟨w, t, ht, hct⟩ := htarget
    obtain ⟨hw, hwn, a, ha, han, hab⟩ := target_mem ht
    obtain ⟨hav1, hav2, hav3⟩ := hav m ref ⟨ps, .inl rfl⟩ w t ht
    have hname : name ∈ declares tree mod (.defined m ref ps) name := by
      simp only [declares]
      split
      · split <;> simp
      · simp
    have plain : pre = [] → (∃ T, c.denote lib mod.name env = .ok T) → RunOk lib tree mod (.defined m ref ps) name env (pre ++ [.type name c]) := by
      rintro rfl ⟨T, hT⟩
      obtain ⟨env', h8, h9⟩ := run_alias (pre := []) rfl (.refl _ _) hT (hfr name hname)
      refine ⟨env', _, h8, h9, ?_, fun h => by (cases h), fun h => by (cases h)⟩
      intro p hp
      rw [List.mem_singleton.1 hp]
      exact hname
    rw [isGenerated_untag] at h6
    split at h6
    · rename_i hgen
      cases h6
      refine plain ?_ ?_
      · split at h5
        · rename_i he; rw [he] at hgen; cases hgen
        · exact (Res.ok.inj h5).symm
      · obtain ⟨T, hT⟩ := hav1
        exact ⟨T, by rw [CppTy.denote, ← hwn, hT]; rfl⟩
    · rename_i hgen
      have hgen' : isStruct (untag r.type) = false := by simpa using hgen
      rcases core_cases hS ho hcore with hk | ⟨k, hk, hkn⟩ | hk
      · rw [hk] at hgen'; cases hgen'
      · have hid := chosen_ident hS ho hcore (by rw [hk]; simp) hov h4
        by_cases he : k = .enumerated
        · subst he
          rw [hk] at hcore
          have hd := hC.direct _ _ _ _ _ _ ho hcore (.inr rfl)
          rw [ht] at hd
          cases hd
          obtain ⟨hrt, hrm⟩ := standsFor_direct hst (target_lookup ht) (.inl ⟨_, rfl⟩)
          rw [hrt] at h5 h6
          have hval := hav3 rfl
          cases f with
          | zero => rw [typeAsString] at h6; cases h6
          | succ f =>
            rw [typeAsString] at h6
            cases h6
            by_cases hloc : wm.name = mod.name
            · refine plain ?_ (denote_enum_total (find_values hes (by rw [hloc] at hval; exact hval)) hid)
              simp only [hrm, ← hwn] at h5
              rw [if_pos hloc] at h5
              exact (Res.ok.inj h5).symm
            · simp only [hrm, ← hwn] at h5
              rw [if_neg hloc] at h5
              cases h5
              have hdec : declares tree mod (.defined m ref ps) name = [ref ++ "Values", name] := by
                simp only [declares, ht, if_neg hloc]
              rw [hdec] at hnd hfr
              obtain ⟨mid, h8⟩ := declare_total .enum (hfr (ref ++ "Values") (by simp))
              have hstep := (declare_ok h8).2
              have hrun : Decl.runAll lib mod.name env [.usingEnum (ref ++ "Values") wm.name] = .ok mid := by
                refine runAll_one ?_
                rw [Decl.run, hval]
                exact h8
              have hfree : mid.cur mod.name name = none := by
                rw [hstep.other]
                · exact hfr name (by simp)
                · intro p hp he
                  rw [List.mem_singleton.1 hp] at he
                  rw [List.nodup_cons] at hnd
                  exact hnd.1 (by rw [show ref ++ "Values" = name from he]; simp)
              obtain ⟨T, hT⟩ := denote_enum_total (lib := lib) (find_cur (hstep.seen _ List.mem_cons_self)) hid
              obtain ⟨env', h9, h10⟩ := run_alias hrun hstep hT hfree
              refine ⟨env', _, h9, h10, ?_, fun h => by (cases h), fun h => by (cases h)⟩
              intro p hp
              rw [hdec]
              rcases List.mem_cons.1 hp with rfl | hp
              · simp
              · rw [List.mem_singleton.1 hp]; simp
        · refine plain ?_ ?_
          · split at h5
            · rename_i h; rw [h] at hk; exact absurd (AType.leaf.inj hk).symm he
            · exact (Res.ok.inj h5).symm
          · rcases typeAsString_untag hu hgen' h6 with ⟨k', hk', hne, rfl⟩ | ⟨v, hk', rfl⟩ | ⟨hlist, rfl⟩
            · rw [hk] at hk'
              cases hk'
              exact denote_lib_total hkn hne hid
            · rw [hk] at hk'
              exact absurd (AType.leaf.inj hk') he
            · rw [hk] at hlist; cases hlist
      · have hid := chosen_ident hS ho hcore (by intro as s h; rw [h] at hk; cases hk) hov h4
        have hd := hC.direct _ _ _ _ _ _ ho hcore (.inl hk)
        rw [ht] at hd
        have hw' : w = wm := by cases hd; rfl
        have ht' : t = untag r.type := by cases hd; rfl
        subst hw'
        have htl : isList t = true := by rw [ht']; exact hk
        obtain ⟨hrt, hrm⟩ := standsFor_direct hst (target_lookup ht) (.inr htl)
        have hloc := hS.foreignLists _ _ _ _ _ _ ho hcore hk
        refine plain ?_ ?_
        · rw [hrt] at h5
          cases t <;> first | exact (Res.ok.inj h5).symm | cases htl
        · rcases typeAsString_untag hu hgen' h6 with ⟨k', hk', hne, rfl⟩ | ⟨v, hk', rfl⟩ | ⟨hlist, rfl⟩
          · rw [hk'] at hk; cases hk
          · rw [hk'] at hk; cases hk
          · have hnt : hasTag r.type = false := by
              rw [hrt]
              cases t <;> first | rfl | cases htl
            rw [hnt]
            obtain ⟨E, hE⟩ := hav2 htl
            refine denote_seqOf_total (E := E) ?_ hid
            simp only [Bool.false_eq_true, if_false]
            have hwm : w = mod := pairwise_unique hS.modules hw hm (by rw [hwn, hloc])
            subst hwm
            rw [find_space]
            · exact hE
            · rw [← han]; exact hsc.none ha

/-! ## Lists and structs -/

theorem Avail.step {tree : Tree} {mod : Module} {env env' : Env} {t : AType} (h : Avail tree mod env.spaces t) {new : List (Name × Ent)}
    (hs : SpaceStep mod.name env env' new) : Avail tree mod env'.spaces t := by
  cases hsc : env.scopes with
  | nil =>
    intro m ref hm wm u ht
    obtain ⟨⟨T, h1⟩, h2, h3⟩ := h m ref hm wm u ht
    refine ⟨⟨T, hs.lookup hsc h1⟩, fun hl => ?_, fun he => hs.lookup hsc (h3 he)⟩
    obtain ⟨E, hE⟩ := h2 hl
    exact ⟨E, hs.lookup hsc hE⟩
  | cons s ss => rw [(hs.scopes hsc).2]; exact h

theorem list_run {lib : Lib} {tree : Tree} (hS : Supported tree) {fuel : Nat} {mod : Module} {t u : AType} {n : Option Name} {s : Storage}
    (ht : t = .seqOf n u s ∨ t = .setOf n u s) {name : Name} {ov : Option CId} {env : Env} {ds es : List Decl} (ho : Occurs tree mod t)
    (hov : ∀ id, ov = some id → id.list ≠ [])
    (hnd : (declares tree mod u (name ++ "Contained") ++ [name]).Nodup) (hfr : env.cur mod.name name = none)
    (h1 : RunOk lib tree mod u (name ++ "Contained") env ds)
    (hty : ∀ mid, Decl.runAll lib mod.name env ds = .ok mid → ∃ T, mid.cur mod.name (name ++ "Contained") = some (.type T))
    (hc : createAlias tree fuel mod name ov t = .ok es) : RunOk lib tree mod t name env (ds ++ es) := by
  obtain ⟨mid, new, h2, h3, h4, _, _⟩ := h1
  obtain ⟨E, hE⟩ := hty mid h2
  obtain ⟨id, pre, c, h5, h6, h7, rfl⟩ := alias_parts hc
  have hcore : isCore t = true := by rcases ht with rfl | rfl <;> rfl
  have hid := chosen_ident hS ho (.here hcore) (by rcases ht with rfl | rfl <;> simp) hov h5
  have hpre : pre = [] := by
    rcases ht with rfl | rfl
    · rw [enumImport] at h6
      · exact (Res.ok.inj h6).symm
      · intros; contradiction
    · rw [enumImport] at h6
      · exact (Res.ok.inj h6).symm
      · intros; contradiction
  subst hpre
  have hcpp : c = .seqOf (name ++ "Contained") id := by
    cases fuel with
    | zero => rw [typeAsString] at h7; cases h7
    | succ f => rcases ht with rfl | rfl <;> (rw [typeAsString] at h7; exact (Res.ok.inj h7).symm)
  subst hcpp
  obtain ⟨T, hT⟩ := denote_seqOf_total (lib := lib) (find_cur hE) hid
  have hfree : mid.cur mod.name name = none := by
    rw [h3.other]
    · exact hfr
    · intro p hp he
      rw [List.nodup_append] at hnd
      exact hnd.2.2 _ (h4 p hp) _ (List.mem_singleton.2 rfl) he
  obtain ⟨env', h8, h9⟩ := run_alias h2 h3 hT hfree
  have hdec : declares tree mod t name = declares tree mod u (name ++ "Contained") ++ [name] := by rcases ht with rfl | rfl <;> rfl
  refine ⟨env', _, h8, h9, ?_, fun _ => ⟨E, ?_⟩, fun h => by rcases ht with rfl | rfl <;> cases h⟩
  · intro p hp
    rw [hdec]
    rcases List.mem_cons.1 hp with rfl | hp
    · simp
    · exact List.mem_append_left _ (h4 p hp)
  · have hstep : SpaceStep mod.name mid env' [(name, .type T)] := by
      obtain ⟨mid', h10, h11⟩ := runAll_append h8
      rw [h2] at h10
      cases h10
      have h12 := runAll_single h11
      rw [Decl.run, hT, Res.ok_bind] at h12
      exact (declare_ok h12).2
    exact hstep.kept _ _ hE

/-- Running the declarations of components. -/
def RunAll (lib : Lib) (mod : Module) (names : List Name) (env : Env) (ds : List Decl) : Prop :=
  ∃ env' new, Decl.runAll lib mod.name env ds = .ok env' ∧ SpaceStep mod.name env env' new ∧ ∀ p ∈ new, p.1 ∈ names

theorem top_fresh {here name : Name} {env env' : Env} {new : List (Name × Ent)} (hs : SpaceStep here env.enter env' new) (hn : ∀ p ∈ new, p.1 ≠ name) :
    (env'.top.lookup name).isNone = true := by
  obtain ⟨h1, _⟩ := hs.scopes (s := []) (ss := env.scopes) rfl
  unfold Env.top
  rw [h1, List.headD_cons, List.append_nil, Option.isNone_iff_eq_none, lookup_none_iff]
  intro b hb
  exact hn _ hb rfl

theorem scopesOk_enter {mod : Module} {env : Env} (h : ScopesOk mod env.scopes) : ScopesOk mod env.enter.scopes := by
  intro s hs p hp
  rcases List.mem_cons.1 hs with h' | h'
  · subst h'; cases hp
  · exact h s h' p hp

theorem enumScopes_enter {env : Env} (h : EnumScopes env.scopes) : EnumScopes env.enter.scopes := by
  intro s hs p hp
  rcases List.mem_cons.1 hs with h' | h'
  · subst h'; cases hp
  · exact h s h' p hp

theorem enumScopes_step {here : Name} {env env' : Env} {new : List (Name × Ent)} (hs : SpaceStep here env env' new) (h : EnumScopes env.scopes)
    (hn : ∀ p ∈ new, ∀ q, p.1 = q ++ "Values" → p.2 = .enum) : EnumScopes env'.scopes := by
  cases hsc : env.scopes with
  | nil => rw [(hs.spaces hsc).1]; intro s hs'; cases hs'
  | cons s ss =>
    rw [(hs.scopes hsc).1]
    rw [hsc] at h
    intro s' hs' p hp
    rcases List.mem_cons.1 hs' with h' | h'
    · subst h'
      rcases List.mem_append.1 hp with h3 | h3
      · exact hn p h3
      · exact h s List.mem_cons_self p h3
    · exact h s' (List.mem_cons_of_mem _ h') p hp

mutual
theorem createType_run {lib : Lib} {tree : Tree} (hS : Supported tree) (hC : CompilableNames tree) (hL : Legal tree) (hD : DefaultsTaken lib tree) (fuel : Nat)
    {mod : Module} (hm : mod ∈ tree.modules) :
    ∀ (t : AType) (name : Name) (path : Option Name) (ov : Option CId) (env : Env) (ds : List Decl), Occurs tree mod t → Placed tree mod name t →
    Inv lib tree env.spaces → ScopesOk mod env.scopes → EnumScopes env.scopes → (∀ id, ov = some id → id.list ≠ []) → Avail tree mod env.spaces t →
    (declares tree mod t name).Nodup → (∀ n ∈ declares tree mod t name, env.cur mod.name n = none) → (isStruct (untag t) = true → path = some name) →
    createType tree fuel mod t name path ov = .ok ds → RunOk lib tree mod t name env ds
  | .leaf k, name, path, ov, env, ds, ho, hp, hI, hsc, hes, hov, hav, hnd, hfr, hpath, hc => leaf_run hS ho hov hnd hfr hc
  | .objField m c fs, name, path, ov, env, ds, ho, hp, hI, hsc, hes, hov, hav, hnd, hfr, hpath, hc => by
    have := hS.tags _ _ ho
    cases this
  | .defined m ref ps, name, path, ov, env, ds, ho, hp, hI, hsc, hes, hov, hav, hnd, hfr, hpath, hc => defined_run hS hC hm ho hsc hes hov hav hnd hfr hc
  | .prefixed c n k t, name, path, ov, env, ds, ho, hp, hI, hsc, hes, hov, hav, hnd, hfr, hpath, hc => by
    rw [createType] at hc
    obtain ⟨id, h1, h2⟩ := Res.bind_eq_ok.1 hc
    obtain ⟨env', new, h3, h4, h5, _, _⟩ := createType_run hS hC hL hD fuel hm t name path (some id) env ds (.prefixed ho) (.prefixed hp) hI hsc hes
      (fun id' h => by cases h; exact prefixed_chosen hS ho hov h1) (hav.child .prefixed) hnd hfr hpath h2
    exact ⟨env', new, h3, h4, h5, fun h => by (cases h), fun h => by (cases h)⟩
  | .seqOf n u s, name, path, ov, env, ds, ho, hp, hI, hsc, hes, hov, hav, hnd, hfr, hpath, hc => by
    rw [createType] at hc
    obtain ⟨ds', h1, hc⟩ := Res.bind_eq_ok.1 hc
    obtain ⟨es, h2, hc⟩ := Res.bind_eq_ok.1 hc
    cases hc
    simp only [declares] at hnd hfr
    have hrun := createType_run hS hC hL hD fuel hm u (name ++ "Contained") (n.map makeTypeName) none env ds' (.seqOf ho) (.seqOf hp) hI hsc hes (fun _ h => by cases h)
      (hav.child .seqOf) (List.nodup_append.1 hnd).1 (fun n hn => hfr n (List.mem_append_left _ hn))
      (fun h => by rw [hC.elements _ _ _ _ (.inl ho)] at h; cases h) h1
    refine list_run hS (.inl rfl) ho hov hnd (hfr name (by simp)) hrun (fun mid hmid => ?_) h2
    obtain ⟨new, T, hstep, hnames, _⟩ := createType_right hS fuel hm u _ _ none env mid ds' (.seqOf ho) hI hsc (fun _ h => by cases h) h1 hmid
    exact ⟨T, hstep.seen _ hnames.type⟩
  | .setOf n u s, name, path, ov, env, ds, ho, hp, hI, hsc, hes, hov, hav, hnd, hfr, hpath, hc => by
    rw [createType] at hc
    obtain ⟨ds', h1, hc⟩ := Res.bind_eq_ok.1 hc
    obtain ⟨es, h2, hc⟩ := Res.bind_eq_ok.1 hc
    cases hc
    simp only [declares] at hnd hfr
    have hrun := createType_run hS hC hL hD fuel hm u (name ++ "Contained") (n.map makeTypeName) none env ds' (.setOf ho) (.setOf hp) hI hsc hes (fun _ h => by cases h)
      (hav.child .setOf) (List.nodup_append.1 hnd).1 (fun n hn => hfr n (List.mem_append_left _ hn))
      (fun h => by rw [hC.elements _ _ _ _ (.inr ho)] at h; cases h) h1
    refine list_run hS (.inr rfl) ho hov hnd (hfr name (by simp)) hrun (fun mid hmid => ?_) h2
    obtain ⟨new, T, hstep, hnames, _⟩ := createType_right hS fuel hm u _ _ none env mid ds' (.setOf ho) hI hsc (fun _ h => by cases h) h1 hmid
    exact ⟨T, hstep.seen _ hnames.type⟩
  | .set cs ext, name, path, ov, env, ds, ho, hp, hI, hsc, hes, hov, hav, hnd, hfr, hpath, hc => by
    rw [createType] at hc
    obtain ⟨_, _, hc⟩ := Res.bind_eq_ok.1 hc
    obtain ⟨inner, h2, hc⟩ := Res.bind_eq_ok.1 hc
    obtain ⟨ms, h3, hc⟩ := Res.bind_eq_ok.1 hc
    obtain ⟨id, h4, hc⟩ := Res.bind_eq_ok.1 hc
    cases hc
    have hcs : ∀ c ∈ cs, Occurs tree mod c.type ∧ Spec.Field tree mod c.name c.type := fun c h => ⟨.set ho h, .set ho h⟩
    have hdist := hC.sets _ _ _ _ hp
    rw [List.nodup_cons] at hdist
    obtain ⟨env1, new, h5, h6, h7⟩ := createComponents_run hS hC hL hD fuel hm cs name 0 env.enter inner
      (fun c h => ⟨.set ho h, .set ho h, .set hp h, hav.child (.set h), fun hs => hC.setNames _ _ _ _ _ hp h hs⟩)
      hI (scopesOk_enter hsc) (enumScopes_enter hes) (by simp [Env.enter]) hdist.2 (fun n _ => Env.enter_cur env _ n) h2
    obtain ⟨_, _, hdecl⟩ := createComponents_right hS fuel hm cs name 0 env.enter env1 inner hcs hI (scopesOk_enter hsc) (by simp [Env.enter]) h2 h5
    obtain ⟨fs, h8⟩ := runMembers_total hS cs 0 ms hcs (fun c h v ho' hv => hD _ _ _ _ _ (.inr ho) h ho' hv) h3 hdecl
    obtain ⟨i, h9⟩ := chosen_ident hS ho (.here rfl) (by simp) hov h4
    obtain ⟨env', h10⟩ := declare_total (.type (.set i ext fs)) (hfr name (by simp [declares]))
    refine ⟨env', _, runAll_one ?_, (declare_ok h10).2, fun p hp => ?_, fun h => by (cases h), fun h => by (cases h)⟩
    · rw [Decl.run]
      rw [show ({ env with scopes := [] :: env.scopes } : Env) = env.enter from rfl, h5, Res.ok_bind]
      rw [checkStruct, if_pos ⟨hpath rfl, top_fresh h6 fun p hp he => hdist.1 (by have := h7 p hp; rw [he] at this; exact this)⟩, Res.ok_bind, h8, Res.ok_bind, h9]
      simp only [need, Res.ok_bind, if_true, set_labels hS hC hL ho h3]
      exact h10
    · rw [List.mem_singleton.1 hp]; simp [declares]
  | .sequence cs ext, name, path, ov, env, ds, ho, hp, hI, hsc, hes, hov, hav, hnd, hfr, hpath, hc => by
    rw [createType] at hc
    obtain ⟨_, _, hc⟩ := Res.bind_eq_ok.1 hc
    obtain ⟨inner, h2, hc⟩ := Res.bind_eq_ok.1 hc
    obtain ⟨ms, h3, hc⟩ := Res.bind_eq_ok.1 hc
    obtain ⟨id, h4, hc⟩ := Res.bind_eq_ok.1 hc
    cases hc
    have hcs : ∀ c ∈ cs, Occurs tree mod c.type ∧ Spec.Field tree mod c.name c.type := fun c h => ⟨.sequence ho h, .sequence ho h⟩
    have hdist := hC.sequences _ _ _ _ hp
    rw [List.nodup_cons] at hdist
    obtain ⟨env1, new, h5, h6, h7⟩ := createComponents_run hS hC hL hD fuel hm cs name 0 env.enter inner
      (fun c h => ⟨.sequence ho h, .sequence ho h, .sequence hp h, hav.child (.sequence h), fun hs => hC.sequenceNames _ _ _ _ _ hp h hs⟩)
      hI (scopesOk_enter hsc) (enumScopes_enter hes) (by simp [Env.enter]) hdist.2 (fun n _ => Env.enter_cur env _ n) h2
    obtain ⟨_, _, hdecl⟩ := createComponents_right hS fuel hm cs name 0 env.enter env1 inner hcs hI (scopesOk_enter hsc) (by simp [Env.enter]) h2 h5
    obtain ⟨fs, h8⟩ := runMembers_total hS cs 0 ms hcs (fun c h v ho' hv => hD _ _ _ _ _ (.inl ho) h ho' hv) h3 hdecl
    obtain ⟨i, h9⟩ := chosen_ident hS ho (.here rfl) (by simp) hov h4
    obtain ⟨env', h10⟩ := declare_total (.type (.seq i fs)) (hfr name (by simp [declares]))
    refine ⟨env', _, runAll_one ?_, (declare_ok h10).2, fun p hp => ?_, fun h => by (cases h), fun h => by (cases h)⟩
    · rw [Decl.run]
      rw [show ({ env with scopes := [] :: env.scopes } : Env) = env.enter from rfl, h5, Res.ok_bind]
      rw [checkStruct, if_pos ⟨hpath rfl, top_fresh h6 fun p hp he => hdist.1 (by have := h7 p hp; rw [he] at this; exact this)⟩, Res.ok_bind, h8, Res.ok_bind, h9]
      simp only [need, Res.ok_bind, Bool.false_eq_true, if_false]
      exact h10
    · rw [List.mem_singleton.1 hp]; simp [declares]
  | .choice as s, name, path, ov, env, ds, ho, hp, hI, hsc, hes, hov, hav, hnd, hfr, hpath, hc => by
    rw [createType] at hc
    obtain ⟨id, h4, hc⟩ := Res.bind_eq_ok.1 hc
    obtain ⟨inner, h2, hc⟩ := Res.bind_eq_ok.1 hc
    obtain ⟨ms, h3, hc⟩ := Res.bind_eq_ok.1 hc
    cases hc
    have hcs : ∀ a ∈ as, Occurs tree mod a.type ∧ Spec.Field tree mod a.name a.type := fun c h => ⟨.choice ho h, .choice ho h⟩
    have hdist := hC.choices _ _ _ _ hp
    rw [List.nodup_cons] at hdist
    obtain ⟨env1, new, h5, h6, h7⟩ := createChoices_run hS hC hL hD fuel hm as 0 env.enter inner
      (fun c h => ⟨.choice ho h, .choice ho h, .choice hp h, hav.child (.choice h)⟩)
      hI (scopesOk_enter hsc) (enumScopes_enter hes) (by simp [Env.enter]) hdist.2 (fun n _ => Env.enter_cur env _ n) h2
    obtain ⟨_, _, hdecl⟩ := createChoices_right hS fuel hm as 0 env.enter env1 inner hcs hI (scopesOk_enter hsc) (by simp [Env.enter]) h2 h5
    obtain ⟨fs, h8⟩ := runAlts_total hS as 0 ms hcs h3 hdecl
    obtain ⟨env', h10⟩ := declare_total (.type (.choice id.choiceIdent fs)) (hfr name (by simp [declares]))
    refine ⟨env', _, runAll_one ?_, (declare_ok h10).2, fun p hp => ?_, fun h => by (cases h), fun h => by (cases h)⟩
    · rw [Decl.run]
      rw [show ({ env with scopes := [] :: env.scopes } : Env) = env.enter from rfl, h5, Res.ok_bind]
      rw [checkStruct, if_pos ⟨hpath rfl, top_fresh h6 fun p hp he => hdist.1 (by have := h7 p hp; rw [he] at this; exact this)⟩, Res.ok_bind, h8, Res.ok_bind,
        choice_labels hS hC hL ho h3, Res.ok_bind]
      exact h10
    · rw [List.mem_singleton.1 hp]; simp [declares]
theorem createComponents_run {lib : Lib} {tree : Tree} (hS : Supported tree) (hC : CompilableNames tree) (hL : Legal tree) (hD : DefaultsTaken lib tree) (fuel : Nat)
    {mod : Module} (hm : mod ∈ tree.modules) :
    ∀ (cs : List Comp) (parent : Name) (i : Nat) (env : Env) (ds : List Decl),
    (∀ c ∈ cs, Occurs tree mod c.type ∧ Spec.Field tree mod c.name c.type ∧ Placed tree mod (memberName c.name parent) c.type ∧ Avail tree mod env.spaces c.type ∧
      (isStruct (untag c.type) = true → typeName c.name ≠ parent)) →
    Inv lib tree env.spaces → ScopesOk mod env.scopes → EnumScopes env.scopes → env.scopes ≠ [] →
    (cs.flatMap fun c => declares tree mod c.type (memberName c.name parent)).Nodup →
    (∀ n ∈ cs.flatMap (fun c => declares tree mod c.type (memberName c.name parent)), env.cur mod.name n = none) →
    createComponents tree fuel mod parent i cs = .ok ds → RunAll lib mod (cs.flatMap fun c => declares tree mod c.type (memberName c.name parent)) env ds
  | [], parent, i, env, ds, _, hI, hsc, hes, hne, hnd, hfr, hc => by
    rw [createComponents] at hc
    cases hc
    exact ⟨env, [], rfl, .refl _ _, fun _ h => by cases h⟩
  | .mk n t o d co st :: cs, parent, i, env, ds, hcs, hI, hsc, hes, hne, hnd, hfr, hc => by
    rw [createComponents] at hc
    obtain ⟨ds', h1, hc⟩ := Res.bind_eq_ok.1 hc
    obtain ⟨es, h2, hc⟩ := Res.bind_eq_ok.1 hc
    cases hc
    obtain ⟨ho, hf, hpl, hav, hst⟩ := hcs _ List.mem_cons_self
    simp only [Comp.type, Comp.name] at ho hf hpl hav hst
    rw [List.flatMap_cons] at hnd hfr ⊢
    simp only [Comp.type, Comp.name] at hnd hfr ⊢
    obtain ⟨hnd1, hnd2, hnd3⟩ := List.nodup_append.1 hnd
    obtain ⟨mid, new, h3, h4, h5, _, _⟩ := createType_run hS hC hL hD fuel hm t (makeTypeName n parent) (some (makeTypeName n)) (autoOverride mod i) env ds' ho
      (by rw [makeTypeName_member]; exact hpl) hI hsc hes (fun _ h => autoOverride_ne h) hav (by rw [makeTypeName_member]; exact hnd1)
      (fun q hq => hfr q (List.mem_append_left _ (by rw [makeTypeName_member] at hq; exact hq)))
      (fun h => by
        rw [makeTypeName_alone (hS.fieldNames _ _ _ hf).1, makeTypeName_member, memberName, if_neg (hst h)]) h1
    obtain ⟨new', T, hstep, hnames, _⟩ := createType_right hS fuel hm t _ _ (autoOverride mod i) env mid ds' ho hI hsc (fun _ h => autoOverride_ne h) h1 h3
    obtain ⟨k1, k2, k3⟩ := scopes_after hS hm hf hnames hstep hne hsc
    have k4 := enumScopes_step hstep hes (hnames.values hC hf)
    obtain ⟨env', new2, h6, h7, h8⟩ := createComponents_run hS hC hL hD fuel hm cs parent (i + 1) mid es
      (fun c hc => by
        obtain ⟨x1, x2, x3, x4, x5⟩ := hcs c (List.mem_cons_of_mem _ hc)
        exact ⟨x1, x2, x3, by rw [k2]; exact x4, x5⟩) (by rw [k2]; exact hI) k3 k4 k1 hnd2
      (fun q hq => by
        rw [h4.other]
        · exact hfr q (List.mem_append_right _ hq)
        · intro p hp he
          exact hnd3 _ (by have := h5 p hp; rw [makeTypeName_member] at this; exact this) _ hq he) h2
    refine ⟨env', _, runAll_append_ok h3 h6, h4.trans h7, fun p hp => ?_⟩
    rcases List.mem_append.1 hp with hp | hp
    · exact List.mem_append_right _ (h8 p hp)
    · exact List.mem_append_left _ (by have := h5 p hp; rw [makeTypeName_member] at this; exact this)
theorem createChoices_run {lib : Lib} {tree : Tree} (hS : Supported tree) (hC : CompilableNames tree) (hL : Legal tree) (hD : DefaultsTaken lib tree) (fuel : Nat)
    {mod : Module} (hm : mod ∈ tree.modules) :
    ∀ (as : List Named) (i : Nat) (env : Env) (ds : List Decl),
    (∀ a ∈ as, Occurs tree mod a.type ∧ Spec.Field tree mod a.name a.type ∧ Placed tree mod (typeName a.name) a.type ∧ Avail tree mod env.spaces a.type) →
    Inv lib tree env.spaces → ScopesOk mod env.scopes → EnumScopes env.scopes → env.scopes ≠ [] →
    (as.flatMap fun a => declares tree mod a.type (typeName a.name)).Nodup →
    (∀ n ∈ as.flatMap (fun a => declares tree mod a.type (typeName a.name)), env.cur mod.name n = none) →
    createChoices tree fuel mod i as = .ok ds → RunAll lib mod (as.flatMap fun a => declares tree mod a.type (typeName a.name)) env ds
  | [], i, env, ds, _, hI, hsc, hes, hne, hnd, hfr, hc => by
    rw [createChoices] at hc
    cases hc
    exact ⟨env, [], rfl, .refl _ _, fun _ h => by cases h⟩
  | .mk n t :: as, i, env, ds, hcs, hI, hsc, hes, hne, hnd, hfr, hc => by
    rw [createChoices] at hc
    obtain ⟨ds', h1, hc⟩ := Res.bind_eq_ok.1 hc
    obtain ⟨es, h2, hc⟩ := Res.bind_eq_ok.1 hc
    cases hc
    obtain ⟨ho, hf, hpl, hav⟩ := hcs _ List.mem_cons_self
    simp only [Named.type, Named.name] at ho hf hpl hav
    rw [List.flatMap_cons] at hnd hfr ⊢
    simp only [Named.type, Named.name] at hnd hfr ⊢
    obtain ⟨hnd1, hnd2, hnd3⟩ := List.nodup_append.1 hnd
    have hname := makeTypeName_alone (hS.fieldNames _ _ _ hf).1
    obtain ⟨mid, new, h3, h4, h5, _, _⟩ := createType_run hS hC hL hD fuel hm t (makeTypeName n) (some (makeTypeName n)) (autoOverride mod i) env ds' ho
      (by rw [hname]; exact hpl) hI hsc hes (fun _ h => autoOverride_ne h) hav (by rw [hname]; exact hnd1)
      (fun q hq => hfr q (List.mem_append_left _ (by rw [hname] at hq; exact hq))) (fun _ => rfl) h1
    obtain ⟨new', T, hstep, hnames, _⟩ := createType_right hS fuel hm t _ _ (autoOverride mod i) env mid ds' ho hI hsc (fun _ h => autoOverride_ne h) h1 h3
    obtain ⟨k1, k2, k3⟩ := scopes_after hS hm hf hnames hstep hne hsc
    have k4 := enumScopes_step hstep hes (hnames.values hC hf)
    obtain ⟨env', new2, h6, h7, h8⟩ := createChoices_run hS hC hL hD fuel hm as (i + 1) mid es
      (fun c hc => by
        obtain ⟨x1, x2, x3, x4⟩ := hcs c (List.mem_cons_of_mem _ hc)
        exact ⟨x1, x2, x3, by rw [k2]; exact x4⟩) (by rw [k2]; exact hI) k3 k4 k1 hnd2
      (fun q hq => by
        rw [h4.other]
        · exact hfr q (List.mem_append_right _ hq)
        · intro p hp he
          exact hnd3 _ (by have := h5 p hp; rw [hname] at this; exact this) _ hq he) h2
    refine ⟨env', _, runAll_append_ok h3 h6, h4.trans h7, fun p hp => ?_⟩
    rcases List.mem_append.1 hp with hp | hp
    · exact List.mem_append_right _ (h8 p hp)
    · exact List.mem_append_left _ (by have := h5 p hp; rw [hname] at this; exact this)
end

end FastBer.Ast
