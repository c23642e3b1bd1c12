import Verif.Proofs.EmitInv
/-!
# The declarations the compiler writes implement the ASN.1 types
-/
namespace FastBer.Ast
open Spec

/-! ## Identifiers of declared types -/

/-- The C++ type has this identifier. -/
def _root_.FastBer.Ty.HasId (id : CId) : Ty → Prop
  | .leaf _ i => id.ident = some i
  | .seqOf i _ => id.ident = some i
  | .seq i _ => id.ident = some i
  | .set i _ _ => id.ident = some i
  | .choice cid _ => cid = id.choiceIdent

theorem ident_list {id : CId} {i : Ident} (h : id.ident = some i) : i.list = id.list.map idOf := by
  cases id with
  | single j => cases h; simp [Ident.list, CId.list, TagId.id_eq]
  | double o j => cases h; simp [Ident.list, CId.list, TagId.id_eq]
  | choice l => cases h

theorem _root_.FastBer.Ty.HasId.own {id : CId} {T : Ty} (h : T.HasId id) : T.own = id.list.map idOf := by
  cases T with
  | leaf l i => exact ident_list h
  | seqOf i T => exact ident_list h
  | seq i fs => exact ident_list h
  | set i e fs => exact ident_list h
  | choice cid as =>
    cases h
    cases id with
    | single j => simp [CId.choiceIdent, Ty.own, Ident.list, CId.list, TagId.id_eq]
    | double o j => simp [CId.choiceIdent, Ty.own, Ident.list, CId.list, TagId.id_eq]
    | choice l => simp [CId.choiceIdent, Ty.own, CId.list]

/-- The identifier used for a type. -/
def Chosen (tree : Tree) (fuel : Nat) (mod : Module) (t : AType) (ov : Option CId) (id : CId) : Prop := overrideOr tree fuel mod t ov = .ok id

theorem Chosen.head {tree : Tree} {fuel : Nat} {mod : Module} {t : AType} {id : CId} (h : Chosen tree fuel mod t none id)
    (hs : TagSafe tree mod t) {T : Ty} (hT : T.HasId id) : T.Head tree mod t := by
  unfold Chosen overrideOr at h
  obtain ⟨i, h1, h2⟩ := Res.bind_eq_ok.1 h
  cases h2
  obtain ⟨ts, ho, hf⟩ := identifier_own hs h1
  exact ⟨ts, ho, by rw [hT.own, hf.list]⟩

/-- The type is, tags aside, a reference to a SEQUENCE, SET or CHOICE. -/
def StructRef (tree : Tree) (mod : Module) (t : AType) : Prop :=
  (∃ m ref ps, untag t = .defined m ref ps) ∧ ∃ wm u, Core tree mod t wm u ∧ isStruct u = true

/-- What `create_type_assignment` declares for a type. -/
def Made_emit (lib : Lib) (tree : Tree) (fuel : Nat) (mod : Module) (t : AType) (ov : Option CId) (T : Ty) : Prop :=
  T.Body noHoles lib tree mod t ∧ ((∃ id, T.HasId id ∧ Chosen tree fuel mod t ov id) ∨ (StructRef tree mod t ∧ (¬ Lost tree mod t → T.Head tree mod t)))

theorem Made_emit.entry {lib : Lib} {tree : Tree} (hS : Supported tree) {fuel : Nat} {mod : Module} {t : AType} {T : Ty}
    (hoc : Occurs tree mod t) (h : Made_emit lib tree fuel mod t none T) : Entry lib tree mod t T := by
  refine ⟨h.1, fun hl => ?_⟩
  rcases h.2 with ⟨id, h1, h2⟩ | ⟨_, h2⟩
  · exact h2.head (hS.tags _ _ hoc) h1
  · exact h2 hl

theorem ownTags_exists {tree : Tree} {mod : Module} {t : AType} (h : TagSafe tree mod t) : ∃ ts, OwnTags tree mod t ts := by
  induction h with
  | leaf hk => obtain ⟨n, _, hn⟩ := known_tag hk; exact ⟨_, .leaf hn⟩
  | sequence => exact ⟨_, .sequence ..⟩
  | seqOf => exact ⟨_, .seqOf ..⟩
  | set => exact ⟨_, .set ..⟩
  | setOf => exact ⟨_, .setOf ..⟩
  | choice => exact ⟨_, .choice ..⟩
  | @prefixed mod c n k t x ts _ ho _ _ _ =>
    by_cases hx : ExplicitTag tree mod t k
    · exact ⟨_, .explicit_ hx ho⟩
    · exact ⟨_, .implicit hx ho⟩
  | prefixedChoice _ ho _ _ => exact ⟨_, .explicit_ (.untagged (ownTags_nil ho)) ho⟩
  | reference ht _ ih => obtain ⟨ts, ho⟩ := ih; exact ⟨ts, .reference ht ho⟩

/-! ## Names -/

theorem makeTypeName_eq (n parent : Name) : makeTypeName n parent = typeName n ∨ makeTypeName n parent = typeName n ++ "_" := by
  by_cases h : typeName n = parent
  · refine .inr ?_
    show (if typeName n = parent then _ else _) = _
    rw [if_pos h]; rfl
  · refine .inl ?_
    show (if typeName n = parent then _ else _) = _
    rw [if_neg h]; rfl

theorem makeTypeName_ne {tree : Tree} (hS : Supported tree) {mod : Module} {n : Name} {t : AType} (hf : Spec.Field tree mod n t) (parent p : Name) :
    makeTypeName n parent ≠ p ++ "Contained" := by
  rcases makeTypeName_eq n parent with h | h <;> rw [h]
  · exact (hS.fieldNames _ _ _ hf).2 p
  · exact underscore_ne _ _

theorem makeTypeName_ne_empty {tree : Tree} (hS : Supported tree) {mod : Module} {n : Name} {t : AType} (hf : Spec.Field tree mod n t) (parent : Name) :
    makeTypeName n parent ≠ "" := by
  rcases makeTypeName_eq n parent with h | h <;> rw [h]
  · exact (hS.fieldNames _ _ _ hf).1
  · intro h
    have := congrArg String.toList h
    simp [String.toList_append] at this

/-- What is declared for a type called `name`. -/
structure Names (lib : Lib) (tree : Tree) (mod : Module) (t : AType) (name : Name) (T : Ty) (new : List (Name × Ent)) : Prop where
  type : (name, Ent.type T) ∈ new
  types : ∀ n T', (n, Ent.type T') ∈ new → ∃ k u, n = contained k name ∧ elemAt k t = some u ∧ (k = 0 → T' = T) ∧ (0 < k → Entry lib tree mod u T')
  enums : ∀ n, (n, Ent.enum) ∈ new → ∃ p, n = p ++ "Values"

theorem contained_ne_empty {n : Name} (h : n ≠ "") : ∀ k, contained k n ≠ ""
  | 0 => h
  | k + 1 => by
    intro h
    have := congrArg String.toList h
    simp [contained, String.toList_append] at this

/-- The names declared for a component are none an element type could be taken for. -/
theorem Names.scope {lib : Lib} {tree : Tree} (hS : Supported tree) {mod : Module} (hm : mod ∈ tree.modules) {n parent : Name} {t : AType}
    (hf : Spec.Field tree mod n t) {T : Ty} {new : List (Name × Ent)} (h : Names lib tree mod t (makeTypeName n parent) T new) :
    ∀ p ∈ new, p.1 ≠ "Contained" ∧ ∀ a ∈ mod.assignments, p.1 ≠ a.name ++ "Contained" := by
  have hempty : ("" : Name) ++ "Contained" = "Contained" := by decide
  intro p hp
  obtain ⟨q, e⟩ := p
  cases e with
  | enum =>
    obtain ⟨v, rfl⟩ := h.enums _ hp
    exact ⟨by rw [← hempty]; exact values_ne _ _, fun a _ => values_ne _ _⟩
  | type T' =>
    obtain ⟨k, u, rfl, hu, _, _⟩ := h.types _ _ hp
    cases k with
    | zero => exact ⟨by rw [← hempty]; exact makeTypeName_ne hS hf _ _, fun a _ => makeTypeName_ne hS hf _ _⟩
    | succ k =>
      refine ⟨fun he => ?_, fun a ha he => ?_⟩
      · simp only at he
        rw [← hempty, contained] at he
        exact contained_ne_empty (makeTypeName_ne_empty hS hf _) k ((String.append_left_inj _).1 he)
      · have h1 := (String.append_left_inj _).1 he
        cases k with
        | zero =>
          have h2 := hS.listNames _ _ _ hf (elemAt_list hu) a ha
          rcases makeTypeName_eq n parent with h3 | h3
          · exact h2.1 (by rw [← h3]; exact h1.symm)
          · exact h2.2 (by rw [← h3]; exact h1.symm)
        | succ k => exact (hS.typeNames _ hm _ ha).2 _ h1.symm

/-! ## The members of a struct -/

theorem resolveType_ref {tree : Tree} (hS : Supported tree) {mod : Module} {fuel : Nat} {name : Name} : ∀ {t : AType} {r : Resolved},
    Occurs tree mod t → resolveType tree mod.name fuel name t = .ok r → ∃ wm, Core tree mod t wm (untag r.type)
  | .prefixed c n k t, r, hoc, h => by
    rw [resolveType] at h
    obtain ⟨wm, h1⟩ := resolveType_ref hS (.prefixed hoc) h
    exact ⟨wm, .prefixed h1⟩
  | .defined m ref ps, r, hoc, h => by
    rw [resolveType] at h
    exact (resolveDefined_core hS hoc h).2.2
  | .leaf k, r, hoc, h => by
    rw [resolveType] at h
    · obtain ⟨w, _, h2⟩ := Res.bind_eq_ok.1 h
      cases h2
      exact ⟨mod, .here rfl⟩
    · intros; contradiction
    · intros; contradiction
  | .choice _ _, r, hoc, h => by
    rw [resolveType] at h
    · obtain ⟨w, _, h2⟩ := Res.bind_eq_ok.1 h
      cases h2
      exact ⟨mod, .here rfl⟩
    · intros; contradiction
    · intros; contradiction
  | .sequence _ _, r, hoc, h => by
    rw [resolveType] at h
    · obtain ⟨w, _, h2⟩ := Res.bind_eq_ok.1 h
      cases h2
      exact ⟨mod, .here rfl⟩
    · intros; contradiction
    · intros; contradiction
  | .set _ _, r, hoc, h => by
    rw [resolveType] at h
    · obtain ⟨w, _, h2⟩ := Res.bind_eq_ok.1 h
      cases h2
      exact ⟨mod, .here rfl⟩
    · intros; contradiction
    · intros; contradiction
  | .seqOf _ _ _, r, hoc, h => by
    rw [resolveType] at h
    · obtain ⟨w, _, h2⟩ := Res.bind_eq_ok.1 h
      cases h2
      exact ⟨mod, .here rfl⟩
    · intros; contradiction
    · intros; contradiction
  | .setOf _ _ _, r, hoc, h => by
    rw [resolveType] at h
    · obtain ⟨w, _, h2⟩ := Res.bind_eq_ok.1 h
      cases h2
      exact ⟨mod, .here rfl⟩
    · intros; contradiction
    · intros; contradiction
  | .objField _ _ _, r, hoc, h => by
    rw [resolveType] at h
    · obtain ⟨w, _, h2⟩ := Res.bind_eq_ok.1 h
      cases h2
      exact ⟨mod, .here rfl⟩
    · intros; contradiction
    · intros; contradiction

/-- `encode_with_id` and so on: another identifier, the same body. -/
theorem withId_ok {lib : Lib} {tree : Tree} {id : CId} (hid : id.list ≠ []) {T T' : Ty} (h : Ty.withId id T = .ok T') {mod : Module} {t : AType}
    (hb : T.Body noHoles lib tree mod t) : T'.HasId id ∧ T'.Body noHoles lib tree mod t := by
  cases T with
  | leaf l i => rw [Ty.withId] at h; cases h
  | seqOf i T => rw [Ty.withId] at h; cases h
  | seq i fs =>
    rw [Ty.withId] at h
    obtain ⟨j, h1, h2⟩ := Res.bind_eq_ok.1 h
    cases h2
    exact ⟨need_ok h1, hb⟩
  | set i e fs =>
    rw [Ty.withId] at h
    obtain ⟨j, h1, h2⟩ := Res.bind_eq_ok.1 h
    cases h2
    exact ⟨need_ok h1, hb⟩
  | choice cid as =>
    rw [Ty.withId] at h
    cases h
    refine ⟨rfl, ?_⟩
    obtain ⟨wm, as', s, h1, h2, _⟩ := hb
    refine ⟨wm, as', s, h1, h2, ?_⟩
    cases id with
    | single j => trivial
    | double o j => trivial
    | choice l => exact absurd rfl hid

/-- The type of component `i`, with the tag automatic tagging gives it. -/
def effective (mod : Module) (i : Nat) (t : AType) : AType :=
  if mod.tagging = .automatic then .prefixed .contextSpecific i .automatic t else t

theorem autoOverride_ne {mod : Module} {i : Nat} {id : CId} (h : autoOverride mod i = some id) : id.list ≠ [] := by
  unfold autoOverride at h
  split at h
  · cases h; simp [CId.list]
  · cases h

/-- Member function calls use the right codec. -/
theorem member_is {lib : Lib} {tree : Tree} (hS : Supported tree) {fuel i : Nat} {mod : Module} {n : Name} {t : AType} {T T' : Ty} {w : Option CId}
    (hoc : Occurs tree mod t) (hf : Spec.Field tree mod n t) (hT : Made_emit lib tree fuel mod t (autoOverride mod i) T)
    (hw : componentFunction tree fuel mod n t = .ok w) (hm : memberTy T w = .ok T') : T'.Is noHoles lib tree mod (effective mod i t) := by
  unfold componentFunction at hw
  obtain ⟨r, h1, h2⟩ := Res.bind_eq_ok.1 hw
  obtain ⟨wm, hcore⟩ := resolveType_ref hS hoc h1
  rw [isGenerated_untag] at h2
  by_cases ha : mod.tagging = .automatic
  · have hnt := hS.autoUntagged _ _ _ hf ha
    have hnr : ¬ StructRef tree mod t := by
      rintro ⟨⟨m, ref, ps, hu⟩, wm, u, hc, hst⟩
      have : t = .defined m ref ps := by
        cases t with
        | prefixed _ _ _ _ => cases hnt
        | _ => exact hu
      subst this
      have := hS.autoReference _ _ _ _ _ _ _ hf ha hc
      rw [hst] at this
      cases this
    have hw' : w = none := by
      split at h2
      · rename_i hst
        have hc : isCore t = true := by
          cases t with
          | prefixed _ _ _ _ => cases hnt
          | defined m ref ps => exact absurd ⟨⟨m, ref, ps, rfl⟩, _, _, hcore, hst⟩ hnr
          | _ => rfl
        obtain ⟨info, h3, h4⟩ := Res.bind_eq_ok.1 h2
        have : info.isDefault = true := by
          cases fuel with
          | zero => rw [identifier] at h3; cases h3
          | succ f =>
            cases t with
            | prefixed _ _ _ _ => cases hc
            | defined _ _ _ => cases hc
            | leaf k => rw [(hcore.unique (.here rfl)).2] at hst; cases hst
            | objField _ _ _ => rw [(hcore.unique (.here rfl)).2] at hst; cases hst
            | sequence _ _ => rw [identifier] at h3; cases h3; rfl
            | set _ _ => rw [identifier] at h3; cases h3; rfl
            | seqOf _ _ _ => rw [identifier] at h3; cases h3; rfl
            | setOf _ _ _ => rw [identifier] at h3; cases h3; rfl
            | choice _ _ =>
              rw [identifier] at h3
              obtain ⟨_, _, h3⟩ := Res.bind_eq_ok.1 h3
              obtain ⟨_, _, h3⟩ := Res.bind_eq_ok.1 h3
              cases h3; rfl
        rw [if_pos this] at h4
        cases h4; rfl
      · cases h2; rfl
    subst hw'
    cases hm
    rcases hT.2 with ⟨id, h3, h4⟩ | ⟨h3, _⟩
    · have hid : id = .single (.ofTag .contextSpecific i) := by
        unfold Chosen autoOverride at h4
        rw [if_pos ha] at h4
        cases h4; rfl
      subst hid
      unfold effective
      rw [if_pos ha]
      refine ⟨hT.1.of_core fun _ _ => .prefixed, ?_⟩
      obtain ⟨ts, ho⟩ := ownTags_exists (hS.tags _ _ hoc)
      refine ⟨[(.contextSpecific, i)], ?_, by rw [h3.own]; rfl⟩
      have hl := hS.autoSingle _ _ _ _ hf ha ho
      match ts, ho, hl with
      | [], ho, _ => exact .explicit_ (.untagged (ownTags_nil ho)) ho
      | [x], ho, _ =>
        refine .implicit (fun hx => ?_) ho
        cases hx with
        | environment h => rw [ha] at h; cases h
        | untagged hu => cases ownTags_untagged ho hu
    · exact absurd h3 hnr
  · unfold effective
    rw [if_neg ha]
    have hov : autoOverride mod i = none := by unfold autoOverride; rw [if_neg ha]
    rw [hov] at hT
    have hTagSafe := hS.tags _ _ hoc
    split at h2
    · obtain ⟨info, h3, h4⟩ := Res.bind_eq_ok.1 h2
      split at h4
      · rename_i hd
        cases h4
        cases hm
        exact ⟨hT.1, (hT.entry hS hoc).2 (identifier_default h3 hd).not_lost⟩
      · rename_i hd
        cases h4
        obtain ⟨ts, ho, hfor⟩ := identifier_own hTagSafe h3
        have hne : info.cid.list ≠ [] := by
          rw [hfor.list]
          rintro rfl
          generalize hg : ([] : List Spec.Tag) = l at hfor
          cases hfor with
          | choice _ _ h => exact hd h
          | single => cases hg
          | double => cases hg
        obtain ⟨h5, h6⟩ := withId_ok hne hm hT.1
        exact ⟨h6, ts, ho, by rw [h5.own, hfor.list]⟩
    · rename_i hst
      cases h2
      cases hm
      refine ⟨hT.1, ?_⟩
      rcases hT.2 with ⟨id, h3, h4⟩ | ⟨⟨_, wm', u, hc, hu⟩, _⟩
      · exact h4.head hTagSafe h3
      · have := hc.unique hcore
        rw [this.2] at hu
        exact absurd hu hst

end FastBer.Ast
