import Verif.Proofs.ForwardClose
/-!
# The named types of the output: legal recursive types
-/
namespace FastBer.Ast.Fwd
open Spec

theorem typeOf_lookup {env : Env} {m n : Name} {T : RTy Key} (h : env.typeOf m n = some T) : env.spaces.lookup (m, n) = some (.type T) := by
  unfold Env.typeOf at h
  split at h
  · rename_i h'; cases h; exact h'
  · cases h

theorem fits_list {id : CId} (h : fits id = true) : id.list ≠ [] ∧ ∀ tag ∈ id.list, tag.2 < 2 ^ 63 := by
  cases id with
  | single i =>
    simp only [fits, Bool.and_eq_true, decide_eq_true_eq] at h
    refine ⟨by simp [CId.list], fun tag ht => ?_⟩
    simp only [CId.list, List.mem_singleton] at ht
    subst ht
    exact h.2
  | double o i =>
    simp only [fits, Bool.and_eq_true, decide_eq_true_eq] at h
    refine ⟨by simp [CId.list], fun tag ht => ?_⟩
    simp only [CId.list, List.mem_cons, List.not_mem_nil, or_false] at ht
    rcases ht with rfl | rfl
    · exact h.1.2
    · exact h.2.2
  | choice l => cases h

theorem list_fits {id : CId} (hne : id.list ≠ []) (h : ∀ tag ∈ id.list, tag.2 < 2 ^ 63) : fits id = true := by
  cases id with
  | single i =>
    have h1 := h i.tag (by simp [CId.list])
    simp only [fits, Bool.and_eq_true, decide_eq_true_eq]
    exact ⟨Nat.zero_le _, h1⟩
  | double o i =>
    have h1 := h o.tag (by simp [CId.list])
    have h2 := h i.tag (by simp [CId.list])
    simp only [fits, Bool.and_eq_true, decide_eq_true_eq]
    exact ⟨⟨Nat.zero_le _, h1⟩, Nat.zero_le _, h2⟩
  | choice l => exact absurd rfl hne

theorem withId_notRef {id : CId} {T T' : RTy Key} (hr : T.isRef = false) (h : withId id T = .ok T') : T'.isRef = false := by
  cases T with
  | ref k => cases hr
  | leaf l i => rw [withId] at h; cases h
  | seqOf i T => rw [withId] at h; cases h
  | seq i fs =>
    rw [withId] at h
    obtain ⟨j, h1, h2⟩ := Res.bind_eq_ok.1 h
    cases h2; rfl
  | set i e fs =>
    rw [withId] at h
    obtain ⟨j, h1, h2⟩ := Res.bind_eq_ok.1 h
    cases h2; rfl
  | choice cid as => rw [withId] at h; cases h; rfl

theorem program_none {env : Env} {m n : Name} {T : RTy Key} (hT : env.typeOf m n = some T) (hr : T.isRef = false) : env.program ⟨m, n, none⟩ = T := by
  unfold Env.program
  dsimp only
  rw [hT]
  cases T with
  | ref k' => cases hr
  | _ => rfl

theorem program_some {env : Env} {m n : Name} {T T' : RTy Key} {id : CId} (hT : env.typeOf m n = some T) (hr : T.isRef = false) (hw : withId id T = .ok T')
    (hf : fits id = true) : env.program ⟨m, n, some id⟩ = T' := by
  unfold Env.program
  dsimp only
  rw [hT]
  cases T with
  | ref k' => cases hr
  | leaf _ _ => cases hw
  | seqOf _ _ => cases hw
  | seq _ _ => dsimp only; rw [hw]; dsimp only; rw [if_pos hf]
  | set _ _ _ => dsimp only; rw [hw]; dsimp only; rw [if_pos hf]
  | choice _ _ => dsimp only; rw [hw]; dsimp only; rw [if_pos hf]

/-- What the named types are. -/
theorem program_cases (env : Env) (k : Key) :
    env.program k = unused ∨ (∃ T, env.typeOf k.mod k.ref = some T ∧ T.isRef = false ∧
      ((k.id = none ∧ env.program k = T) ∨ ∃ id T', k.id = some id ∧ withId id T = .ok T' ∧ fits id = true ∧ env.program k = T')) := by
  obtain ⟨m, n, kid⟩ := k
  cases hT : env.typeOf m n with
  | none => exact .inl (by unfold Env.program; dsimp only; rw [hT])
  | some T =>
    cases hr : T.isRef with
    | true =>
      cases T with
      | ref k' => exact .inl (by unfold Env.program; dsimp only; rw [hT])
      | _ => cases hr
    | false =>
      cases kid with
      | none => exact .inr ⟨T, rfl, hr, .inl ⟨rfl, program_none hT hr⟩⟩
      | some id =>
        cases hf : fits id with
        | true =>
          have hbad : (∀ T', withId id T ≠ .ok T') → env.program ⟨m, n, some id⟩ = unused := by
            intro hbad
            unfold Env.program
            dsimp only
            rw [hT]
            cases T with
            | ref k' => cases hr
            | leaf _ _ => rfl
            | seqOf _ _ => rfl
            | _ =>
              dsimp only
              split
              · rename_i h; exact absurd h (hbad _)
              · rfl
          cases hw : withId id T with
          | ok T' => exact .inr ⟨T, rfl, hr, .inr ⟨id, T', rfl, hw, hf, program_some hT hr hw hf⟩⟩
          | throw e => exact .inl (hbad fun T' h => by rw [hw] at h; cases h)
          | ub => exact .inl (hbad fun T' h => by rw [hw] at h; cases h)
          | loop => exact .inl (hbad fun T' h => by rw [hw] at h; cases h)
        | false =>
          left
          unfold Env.program
          dsimp only
          rw [hT]
          cases T with
          | ref k' => cases hr
          | leaf _ _ => rfl
          | seqOf _ _ => rfl
          | _ =>
            dsimp only
            split
            · rw [hf]; rfl
            · rfl

/-- Identifiers can be given to structured types. -/
theorem withId_struct {lib : Lib} {tree : Tree} {id : CId} (hne : id.list ≠ []) {T : RTy Key} (hr : T.isRef = false) {mod w : Module} {t c : AType}
    (hb : T.Body lib tree mod t) (hc : Core tree mod t w c) (hs : isStruct c = true) : ∃ T', withId id T = .ok T' := by
  have hid : ∃ i, id.ident = some i := by
    cases id with
    | single i => exact ⟨_, rfl⟩
    | double o i => exact ⟨_, rfl⟩
    | choice l => exact absurd rfl hne
  obtain ⟨i, hi⟩ := hid
  cases T with
  | ref k => cases hr
  | leaf l j =>
    obtain ⟨wm, k, h1, _⟩ := hb
    obtain ⟨_, rfl⟩ := hc.unique h1
    cases hs
  | seqOf j T =>
    obtain ⟨wm, n, u, s, h1, _⟩ := hb
    rcases h1 with h1 | h1
    · obtain ⟨_, rfl⟩ := hc.unique h1
      cases hs
    · obtain ⟨_, rfl⟩ := hc.unique h1
      cases hs
  | seq j fs => exact ⟨.seq i fs, by simp only [withId, hi, need, Res.ok_bind]⟩
  | set j e fs => exact ⟨.set i e fs, by simp only [withId, hi, need, Res.ok_bind]⟩
  | choice cid as => exact ⟨.choice id.choiceIdent as, rfl⟩

theorem program_linked {lib : Lib} {tree : Tree} (hS : Supported tree) (hL : Legal tree) {fuel : Nat} {env : Env} (h : generate lib fuel tree = .ok env) :
    Linked lib tree env.program := by
  obtain ⟨hI, _, _⟩ := runModules_inv hS tree.modules ⟨[], []⟩ env (fun _ h => h) rfl (fun m n T h => by cases h) h
  refine ⟨fun k => ?_, ?_, fun k => ?_⟩
  · rcases program_cases env k with hu | ⟨T, h1, h2, ⟨h3, h4⟩ | ⟨id, T', h3, h4, h5, h6⟩⟩
    · rw [hu]; rfl
    · rw [h4]; exact h2
    · rw [h6]; exact withId_notRef h2 h4
  · rintro k mod t ⟨⟨wm, u, w, c, ha, hc1, hc2, hst, hne⟩, ts, ho, hown⟩ hbd
    obtain ⟨hwm, hwn, a, ham, han, hab⟩ := ha.mem
    obtain ⟨T, hT, hr⟩ := generate_exists hS h hwm ham hab
    have hentry := generate_entry hS h hwm ham hab hT
    rw [hwn, han] at hT
    have hcore : ∀ w' c', Core tree wm u w' c' → Core tree mod t w' c' := by
      intro w' c' hc
      obtain ⟨rfl, rfl⟩ := hc1.unique hc
      exact hc2
    obtain ⟨km, kr, kid⟩ := k
    cases kid with
    | none =>
      rw [program_none hT hr]
      obtain ⟨wm', u', ha', ho', hlost⟩ := hown
      obtain ⟨rfl, rfl⟩ := ha.unique ha'
      obtain ⟨ts', ho'', hown'⟩ := hentry.2.1 hlost
      cases ho'.unique ho''
      exact ⟨hentry.1.of_core hcore, ts, ho, hown'⟩
    | some id =>
      have hlist : id.list = ts := hown
      have hne' := hne id rfl
      obtain ⟨T', hw⟩ := withId_struct hne' hr hentry.1 hc1 hst
      have hf : fits id = true := list_fits hne' (by rw [hlist]; exact hbd ts ho)
      rw [program_some hT hr hw hf]
      obtain ⟨h1, h2⟩ := withId_ok hne' hw hentry.1
      exact ⟨h2.of_core hcore, ts, ho, by rw [← hlist]; exact h1.own⟩
  · rcases program_cases env k with hu | ⟨T, h1, h2, h34⟩
    · exact .inl hu
    · right
      obtain ⟨wm, a, t, j, u, hwm, hn, ha, hab, hc, hu, he⟩ := hI _ _ _ (lookup_mem (typeOf_lookup h1))
      obtain ⟨mod, t, hoc, his⟩ := he.2.2 h2
      refine ⟨mod, t, hoc, ?_⟩
      rcases h34 with ⟨h3, h4⟩ | ⟨id, T', h3, h4, h5, h6⟩
      · rw [h4]
        exact ⟨his.1, fun σ => own_ok (known_of_occurs hL hoc).bound (head_close h2 his.2)⟩
      · rw [h6]
        obtain ⟨hne, hbd⟩ := fits_list h5
        obtain ⟨g1, g2⟩ := withId_ok hne h4 his.1
        refine ⟨g2, fun σ i hi => ?_⟩
        rw [own_close (withId_notRef h2 h4) (g1.own (tree := tree)) σ] at hi
        obtain ⟨tag, ht, rfl⟩ := List.mem_map.1 hi
        have := hbd tag ht
        simp only [FastBer.Spec.idOk, idOf]
        omega

section
variable {lib : Lib} {tree : Tree} {E : REnv Key}

theorem Linked.notRef (hl : Linked lib tree E) (n m : Key) : E n ≠ .ref m := by
  intro h
  have := hl.proper n
  rw [h] at this
  cases this

theorem Linked.stub_outer (hl : Linked lib tree E) (k : Key) : (E.stub k).outer = (E k).ids := by
  rcases E.stub_cases hl.notRef k with ⟨_, i, h1, h2⟩ | ⟨_, h2⟩
  · rw [h2, h1]; rfl
  · rw [h2]; exact altsFor_outer (fun _ => rfl) _

/-- What stands for a named type. -/
theorem Linked.stub_ok (hS : Supported tree) (hL : Legal tree) (hl : Linked lib tree E) {T : Ty} {mod : Module} {t : AType}
    (h : hole lib tree E E.stub T mod t) : T.WF ∧ T.Unamb := by
  obtain ⟨k, rfl, h1, h2, _⟩ := h
  obtain ⟨i1, i2, i3⟩ := is_ids_ok hS hL (hl.proper k) h1 h2
  rcases E.stub_cases hl.notRef k with ⟨_, i, h3, h4⟩ | ⟨_, h4⟩
  · rw [h4]
    exact ⟨i2 i (by simp [h3]), trivial⟩
  · rw [h4]
    refine ⟨⟨(altsFor_outer (fun _ => rfl) _).symm, altsFor_wf _ i2, fun hn => ?_⟩, altsFor_unamb _ i3⟩
    cases hl : (E k).ids with
    | nil => exact i1 hl
    | cons a l => rw [hl] at hn; exact nomatch hn

theorem unused_close (σ : Key → Ty) : unused.close σ = .leaf .null (.single ⟨.universal, 5⟩) := rfl

theorem Linked.wf (hS : Supported tree) (hL : Legal tree) (hD : lib.Defaults) (hl : Linked lib tree E) (k : Key) : (E.one k).WF := by
  unfold REnv.one
  rcases hl.each k with hu | ⟨mod, t, hoc, hb, hown⟩
  · rw [hu, unused_close]; exact ⟨by decide, by decide⟩
  · have hc := coreIn_of_occurs hoc
    exact body_wf (fun T mod t h => (hl.stub_ok hS hL h).1) hS hL hD _ mod t (body_close hS hL hl hl.stub_outer (E k) mod t (hl.proper k) hb hc) (hown _) hc

theorem Linked.unamb (hS : Supported tree) (hL : Legal tree) (hl : Linked lib tree E) (k : Key) : (E.one k).Unamb := by
  unfold REnv.one
  rcases hl.each k with hu | ⟨mod, t, hoc, hb, hown⟩
  · rw [hu, unused_close]; trivial
  · have hc := coreIn_of_occurs hoc
    exact body_unamb (hole_begins hS hl hl.stub_outer) (fun T mod t h => (hl.stub_ok hS hL h).2) hL _ mod t
      (body_close hS hL hl hl.stub_outer (E k) mod t (hl.proper k) hb hc) hc

/-- A type stood for by an untagged CHOICE is one. -/
theorem hole_untagged (hl : Linked lib tree E) {T : Ty} {mod : Module} {t : AType} (h : hole lib tree E E.stub T mod t) (hu : T.isUntaggedChoice) :
    OwnTags tree mod t [] := by
  obtain ⟨k, rfl, h1, _⟩ := h
  rw [REnv.stub_untagged hl.notRef] at hu
  rcases is_cases (hl.proper k) h1 with ⟨_, _, _, ho, _⟩ | ⟨hne, _⟩
  · exact ho
  · unfold REnv.one at hu
    cases hk : E k with
    | ref m => exact (hl.notRef k m hk).elim
    | choice cid as =>
      cases cid with
      | untagged ids => exact absurd hk (hne _ _)
      | tagged id => rw [hk] at hu; exact hu.elim
    | leaf l id => rw [hk] at hu; exact hu.elim
    | seqOf id l => rw [hk] at hu; exact hu.elim
    | seq id l => rw [hk] at hu; exact hu.elim
    | set id l m => rw [hk] at hu; exact hu.elim

theorem Linked.guarded (hS : Supported tree) (hL : Legal tree) (hG : NoBareChoice tree) (hl : Linked lib tree E) (k : Key) : (E.one k).Guarded := by
  unfold REnv.one
  rcases hl.each k with hu | ⟨mod, t, hoc, hb, hown⟩
  · rw [hu, unused_close]; trivial
  · have hc := coreIn_of_occurs hoc
    exact body_guarded (fun T mod t h hu => hole_untagged hl h hu) (fun T mod t h => by obtain ⟨k, rfl, _⟩ := h; exact REnv.stub_guarded hl.notRef k) hL hG _ mod t
      (body_close hS hL hl hl.stub_outer (E k) mod t (hl.proper k) hb hc) hc

theorem Linked.leaves (hS : Supported tree) (hL : Legal tree) {P : Leaf → Prop} (hn : P .null) (hP : ∀ k l, LeafFor lib k l → P l) (hl : Linked lib tree E) (k : Key) : (E.one k).Leaves P := by
  unfold REnv.one
  rcases hl.each k with hu | ⟨mod, t, hoc, hb, hown⟩
  · rw [hu, unused_close]; exact hn
  · have hc := coreIn_of_occurs hoc
    exact body_leaves (fun T mod t h => by obtain ⟨k, rfl, _⟩ := h; exact REnv.stub_leaves hl.notRef hn k) hP _ mod t
      (body_close hS hL hl hl.stub_outer (E k) mod t (hl.proper k) hb hc)

mutual
theorem body_defaults : ∀ (R : RTy Key) (mod : Module) (t : AType), R.Body lib tree mod t → R.Defaults
  | .leaf _ _, _, _, _ => trivial
  | .seqOf _ T, _, _, ⟨wm, _, u, _, _, hb, _⟩ => body_defaults T wm u hb
  | .seq _ fs, _, _, ⟨wm, _, _, _, hb⟩ => fields_defaults fs _ wm _ hb
  | .set _ _ fs, _, _, ⟨wm, _, _, hb⟩ => fields_defaults fs _ wm _ hb
  | .choice _ as, _, _, ⟨wm, _, _, _, hb, _⟩ => alts_defaults as wm _ hb
  | .ref _, _, _, _ => trivial
theorem fields_defaults : ∀ (fs : RFields Key) (all : Bool) (mod : Module) (ss : List Slot), fs.Body lib tree all mod ss → fs.Defaults
  | .nil, _, _, _, _ => trivial
  | .cons k _ T rest, all, mod, _, ⟨s, ss', _, hk, _, h1, _, h3⟩ => by
    refine ⟨body_defaults T mod s.type h1, ?_, fields_defaults rest all mod ss' h3⟩
    cases k with
    | mandatory => trivial
    | optional => trivial
    | default d =>
      obtain ⟨_, T', v, h, _⟩ := hk
      exact closed_ground h
theorem alts_defaults : ∀ (as : RAlts Key) (mod : Module) (ts : List AType), as.Body lib tree mod ts → as.Defaults
  | .nil, _, _, _ => trivial
  | .cons _ T rest, mod, _, ⟨t, ts', _, _, h1, _, h3⟩ => ⟨body_defaults T mod t h1, alts_defaults rest mod ts' h3⟩
end

theorem Linked.defaults (hl : Linked lib tree E) (k : Key) : (E k).Defaults := by
  rcases hl.each k with hu | ⟨mod, t, _, hb, _⟩
  · rw [hu]; trivial
  · exact body_defaults (E k) mod t hb

end

end FastBer.Ast.Fwd
