import Verif.Proofs.ForwardIs
/-!
# The generated C++ with forward declarations implements the ASN.1 types

As Proofs/EmitInv, EmitSound, EmitMain and EmitType, for `RTy`.
-/
namespace FastBer.Ast.Fwd
open Spec

/-- A type with its tags is that of an ASN.1 type. -/
def Somewhere (lib : Lib) (tree : Tree) (T : RTy Key) : Prop := T.isRef = false → ∃ mod t, Occurs tree mod t ∧ T.Is lib tree mod t

/-- What a declared type is. -/
def Entry (lib : Lib) (tree : Tree) (mod : Module) (t : AType) (T : RTy Key) : Prop :=
  T.Body lib tree mod t ∧ (¬ Lost tree mod t → T.Head tree mod t) ∧ Somewhere lib tree T

/-- Every type declared in a namespace is that of an assignment, or of its elements. -/
def Inv (lib : Lib) (tree : Tree) (spaces : List ((Name × Name) × Ent)) : Prop :=
  ∀ m n T, ((m, n), Ent.type T) ∈ spaces → ∃ wm a t k u, wm ∈ tree.modules ∧ wm.name = m ∧ a ∈ wm.assignments ∧ a.body = .type t ∧
    n = contained k a.name ∧ elemAt k t = some u ∧ Entry lib tree wm u T

/-- A reference to a type of a namespace. -/
theorem Inv.ref {lib : Lib} {tree : Tree} (hS : Supported tree) {spaces : List ((Name × Name) × Ent)} (hI : Inv lib tree spaces)
    {md wm : Module} {m : Option Name} {ref : Name} {t : AType} (ht : target tree md m ref = some (wm, t)) {T : RTy Key}
    (hl : spaces.lookup (m.getD md.name, ref) = some (.type T)) : Entry lib tree wm t T := by
  obtain ⟨hw, hn, a, ha, han, hab⟩ := target_mem ht
  obtain ⟨wm', a', t', k, u, hw', hn', ha', hab', hc, hu, he⟩ := hI _ _ _ (lookup_mem hl)
  have h1 : wm' = wm := pairwise_unique hS.modules hw' hw (by rw [hn', hn])
  subst h1
  cases k with
  | zero =>
    have h2 : a' = a := pairwise_unique (hS.assignments _ hw) ha' ha (by rw [han, hc]; rfl)
    subst h2
    rw [hab] at hab'
    cases hab'
    cases hu
    exact he
  | succ k => exact absurd (by rw [han, hc]; rfl) ((hS.typeNames _ hw _ ha).2 (contained k a'.name))

/-- The element type of a reference to a SEQUENCE OF. -/
theorem Inv.element {lib : Lib} {tree : Tree} (hS : Supported tree) {spaces : List ((Name × Name) × Ent)} (hI : Inv lib tree spaces)
    {wm : Module} (hw : wm ∈ tree.modules) {a : Assignment} (ha : a ∈ wm.assignments) {t : AType} (hb : a.body = .type t) {T : RTy Key}
    (hl : spaces.lookup (wm.name, a.name ++ "Contained") = some (.type T)) : ∃ u, elemAt 1 t = some u ∧ Entry lib tree wm u T := by
  obtain ⟨wm', a', t', k, u, hw', hn', ha', hab', hc, hu, he⟩ := hI _ _ _ (lookup_mem hl)
  have h1 : wm' = wm := pairwise_unique hS.modules hw' hw hn'
  subst h1
  cases k with
  | zero => exact absurd hc.symm ((hS.typeNames _ hw _ ha').2 a.name)
  | succ k =>
    have hc' : a.name = contained k a'.name := (String.append_left_inj _).1 hc
    cases k with
    | zero =>
      have h2 : a = a' := pairwise_unique (hS.assignments _ hw) ha ha' hc'
      subst h2
      rw [hb] at hab'
      cases hab'
      exact ⟨u, hu, he⟩
    | succ k => exact absurd hc' ((hS.typeNames _ hw _ ha).2 _)

/-- No scope declares a name a reference to an element type could be taken for. -/
def ScopesOk (mod : Module) (scopes : List (List (Name × Ent))) : Prop :=
  ∀ s ∈ scopes, ∀ p ∈ s, p.1 ≠ "Contained" ∧ ∀ a ∈ mod.assignments, p.1 ≠ a.name ++ "Contained"

theorem ScopesOk.none {mod : Module} {scopes : List (List (Name × Ent))} (h : ScopesOk mod scopes) {a : Assignment} (ha : a ∈ mod.assignments) :
    ∀ s ∈ scopes, s.lookup (a.name ++ "Contained") = none := by
  intro s hs
  rw [lookup_none_iff]
  intro b hb
  exact (h s hs _ hb).2 a ha rfl

/-- The scopes never declare `Contained`, nor do the namespaces. -/
theorem Inv.contained_none {lib : Lib} {tree : Tree} (hS : Supported tree) {spaces : List ((Name × Name) × Ent)} (hI : Inv lib tree spaces)
    {m : Name} {T : RTy Key} : spaces.lookup (m, "Contained") ≠ some (.type T) := by
  intro hl
  obtain ⟨wm, a, t, k, u, hw, _, ha, _, hc, _, _⟩ := hI _ _ _ (lookup_mem hl)
  have hn := hS.typeNames _ hw _ ha
  have h0 : ("" : Name) ++ "Contained" = "Contained" := by decide
  cases k with
  | zero => exact hn.2 "" (by rw [h0]; exact hc.symm)
  | succ k =>
    have h1 : ("" : Name) = contained k a.name := (String.append_left_inj "Contained").1 (by rw [h0]; exact hc)
    cases k with
    | zero => exact hn.1 h1.symm
    | succ k =>
      have := congrArg (fun s => s.toList.length) h1
      simp [contained, String.toList_append] at this

theorem chosen_head {tree : Tree} {fuel : Nat} {mod : Module} {t : AType} {id : CId} (h : Chosen tree fuel mod t none id)
    (hs : TagSafe tree mod t) {T : RTy Key} (hT : T.HasId id) : T.Head tree mod t := by
  unfold Chosen overrideOr at h
  obtain ⟨i, h1, h2⟩ := Res.bind_eq_ok.1 h
  cases h2
  obtain ⟨ts, ho, hf⟩ := identifier_own hs h1
  exact ⟨ts, ho, by rw [← hf.list]; exact hT.own⟩

/-- What `create_type_assignment` declares for a type. -/
def Made (lib : Lib) (tree : Tree) (fuel : Nat) (mod : Module) (t : AType) (ov : Option CId) (T : RTy Key) : Prop :=
  T.Body lib tree mod t ∧ ((∃ id, T.HasId id ∧ Chosen tree fuel mod t ov id) ∨ (StructRef tree mod t ∧ (¬ Lost tree mod t → T.Head tree mod t) ∧ Somewhere lib tree T))

theorem Made.entry {lib : Lib} {tree : Tree} (hS : Supported tree) {fuel : Nat} {mod : Module} {t : AType} {T : RTy Key}
    (hoc : Occurs tree mod t) (h : Made lib tree fuel mod t none T) : Entry lib tree mod t T := by
  rcases h.2 with ⟨id, h1, h2⟩ | ⟨_, h2, h3⟩
  · have hh := chosen_head h2 (hS.tags _ _ hoc) h1
    exact ⟨h.1, fun _ => hh, fun _ => ⟨_, _, hoc, h.1, hh⟩⟩
  · exact ⟨h.1, h2, h3⟩

/-- What is declared for a type called `name`. -/
structure Names (lib : Lib) (tree : Tree) (mod : Module) (t : AType) (name : Name) (T : RTy Key) (new : List (Name × Ent)) : Prop where
  type : (name, Ent.type T) ∈ new
  types : ∀ n T', (n, Ent.type T') ∈ new → ∃ k u, n = contained k name ∧ elemAt k t = some u ∧ (k = 0 → T' = T) ∧ (0 < k → Entry lib tree mod u T')
  enums : ∀ n, (n, Ent.enum) ∈ new → ∃ p, n = p ++ "Values"

/-- The names declared for a component are none an element type could be taken for. -/
theorem Names.scope {lib : Lib} {tree : Tree} (hS : Supported tree) {mod : Module} (hm : mod ∈ tree.modules) {n parent : Name} {t : AType}
    (hf : Spec.Field tree mod n t) {T : RTy Key} {new : List (Name × Ent)} (h : Names lib tree mod t (makeTypeName n parent) T new) :
    ∀ p ∈ new, p.1 ≠ "Contained" ∧ ∀ a ∈ mod.assignments, p.1 ≠ a.name ++ "Contained" := by
  have hempty : ("" : Name) ++ "Contained" = "Contained" := by decide
  intro p hp
  obtain ⟨q, e⟩ := p
  cases e with
  | enum =>
    obtain ⟨v, rfl⟩ := h.enums _ hp
    exact ⟨by rw [← hempty]; exact values_ne _ _, fun a _ => values_ne _ _⟩
  | type T' =>
    obtain ⟨k, u, rfl, hu, _, _⟩ := h.types _ _ hp
    cases k with
    | zero => exact ⟨by rw [← hempty]; exact makeTypeName_ne hS hf _ _, fun a _ => makeTypeName_ne hS hf _ _⟩
    | succ k =>
      refine ⟨fun he => ?_, fun a ha he => ?_⟩
      · simp only at he
        rw [← hempty, contained] at he
        exact contained_ne_empty (makeTypeName_ne_empty hS hf _) k ((String.append_left_inj _).1 he)
      · have h1 := (String.append_left_inj _).1 he
        cases k with
        | zero =>
          have h2 := hS.listNames _ _ _ hf (elemAt_list hu) a ha
          rcases makeTypeName_eq n parent with h3 | h3
          · exact h2.1 (by rw [← h3]; exact h1.symm)
          · exact h2.2 (by rw [← h3]; exact h1.symm)
        | succ k => exact (hS.typeNames _ hm _ ha).2 _ h1.symm

/-- `encode_with_id` and so on: another identifier, the same body. -/
theorem withId_ok {lib : Lib} {tree : Tree} {id : CId} (hid : id.list ≠ []) {T T' : RTy Key} (h : withId id T = .ok T') {mod : Module} {t : AType}
    (hb : T.Body lib tree mod t) : T'.HasId id ∧ T'.Body lib tree mod t := by
  cases T with
  | leaf l i => rw [withId] at h; cases h
  | seqOf i T => rw [withId] at h; cases h
  | seq i fs =>
    rw [withId] at h
    obtain ⟨j, h1, h2⟩ := Res.bind_eq_ok.1 h
    cases h2
    exact ⟨need_ok h1, hb⟩
  | set i e fs =>
    rw [withId] at h
    obtain ⟨j, h1, h2⟩ := Res.bind_eq_ok.1 h
    cases h2
    exact ⟨need_ok h1, hb⟩
  | choice cid as =>
    rw [withId] at h
    cases h
    refine ⟨rfl, ?_⟩
    obtain ⟨wm, as', s, h1, h2, _⟩ := hb
    refine ⟨wm, as', s, h1, h2, ?_⟩
    cases id with
    | single j => trivial
    | double o j => trivial
    | choice l => exact absurd rfl hid
  | ref k =>
    rw [withId] at h
    cases h
    refine ⟨rfl, ?_⟩
    obtain ⟨wm, u, w, c, h1, h2, h3, h4, _⟩ := hb
    exact ⟨wm, u, w, c, h1, h2, h3, h4, fun id' h => by cases h; exact hid⟩

/-- Member function calls use the right codec. -/
theorem member_is {lib : Lib} {tree : Tree} (hS : Supported tree) {fuel i : Nat} {mod : Module} {n : Name} {t : AType} {T T' : RTy Key} {w : Option CId}
    (hoc : Occurs tree mod t) (hf : Spec.Field tree mod n t) (hT : Made lib tree fuel mod t (autoOverride mod i) T)
    (hw : componentFunction tree fuel mod n t = .ok w) (hm : memberTy T w = .ok T') : T'.Is lib tree mod (effective mod i t) := by
  unfold componentFunction at hw
  obtain ⟨r, h1, h2⟩ := Res.bind_eq_ok.1 hw
  obtain ⟨wm, hcore⟩ := resolveType_ref hS hoc h1
  rw [isGenerated_untag] at h2
  by_cases ha : mod.tagging = .automatic
  · have hnt := hS.autoUntagged _ _ _ hf ha
    have hnr : ¬ StructRef tree mod t := by
      rintro ⟨⟨m, ref, ps, hu⟩, wm, u, hc, hst⟩
      have : t = .defined m ref ps := by
        cases t with
        | prefixed _ _ _ _ => cases hnt
        | _ => exact hu
      subst this
      have := hS.autoReference _ _ _ _ _ _ _ hf ha hc
      rw [hst] at this
      cases this
    have hw' : w = none := by
      split at h2
      · rename_i hst
        have hc : isCore t = true := by
          cases t with
          | prefixed _ _ _ _ => cases hnt
          | defined m ref ps => exact absurd ⟨⟨m, ref, ps, rfl⟩, _, _, hcore, hst⟩ hnr
          | _ => rfl
        obtain ⟨info, h3, h4⟩ := Res.bind_eq_ok.1 h2
        have : info.isDefault = true := by
          cases fuel with
          | zero => rw [identifier] at h3; cases h3
          | succ f =>
            cases t with
            | prefixed _ _ _ _ => cases hc
            | defined _ _ _ => cases hc
            | leaf k => rw [(hcore.unique (.here rfl)).2] at hst; cases hst
            | objField _ _ _ => rw [(hcore.unique (.here rfl)).2] at hst; cases hst
            | sequence _ _ => rw [identifier] at h3; cases h3; rfl
            | set _ _ => rw [identifier] at h3; cases h3; rfl
            | seqOf _ _ _ => rw [identifier] at h3; cases h3; rfl
            | setOf _ _ _ => rw [identifier] at h3; cases h3; rfl
            | choice _ _ =>
              rw [identifier] at h3
              obtain ⟨_, _, h3⟩ := Res.bind_eq_ok.1 h3
              obtain ⟨_, _, h3⟩ := Res.bind_eq_ok.1 h3
              cases h3; rfl
        rw [if_pos this] at h4
        cases h4; rfl
      · cases h2; rfl
    subst hw'
    cases hm
    rcases hT.2 with ⟨id, h3, h4⟩ | ⟨h3, _⟩
    · have hid : id = .single (.ofTag .contextSpecific i) := by
        unfold Chosen autoOverride at h4
        rw [if_pos ha] at h4
        cases h4; rfl
      subst hid
      unfold effective
      rw [if_pos ha]
      refine ⟨hT.1.of_core fun _ _ => .prefixed, ?_⟩
      obtain ⟨ts, ho⟩ := ownTags_exists (hS.tags _ _ hoc)
      refine ⟨[(.contextSpecific, i)], ?_, h3.own⟩
      have hl := hS.autoSingle _ _ _ _ hf ha ho
      match ts, ho, hl with
      | [], ho, _ => exact .explicit_ (.untagged (ownTags_nil ho)) ho
      | [x], ho, _ =>
        refine .implicit (fun hx => ?_) ho
        cases hx with
        | environment h => rw [ha] at h; cases h
        | untagged hu => cases ownTags_untagged ho hu
    · exact absurd h3 hnr
  · unfold effective
    rw [if_neg ha]
    have hov : autoOverride mod i = none := by unfold autoOverride; rw [if_neg ha]
    rw [hov] at hT
    have hTagSafe := hS.tags _ _ hoc
    split at h2
    · obtain ⟨info, h3, h4⟩ := Res.bind_eq_ok.1 h2
      split at h4
      · rename_i hd
        cases h4
        cases hm
        exact ⟨hT.1, (hT.entry hS hoc).2.1 (identifier_default h3 hd).not_lost⟩
      · rename_i hd
        cases h4
        obtain ⟨ts, ho, hfor⟩ := identifier_own hTagSafe h3
        have hne : info.cid.list ≠ [] := by
          rw [hfor.list]
          rintro rfl
          generalize hg : ([] : List Spec.Tag) = l at hfor
          cases hfor with
          | choice _ _ h => exact hd h
          | single => cases hg
          | double => cases hg
        obtain ⟨h5, h6⟩ := withId_ok hne hm hT.1
        exact ⟨h6, ts, ho, by rw [← hfor.list]; exact h5.own⟩
    · rename_i hst
      cases h2
      cases hm
      refine ⟨hT.1, ?_⟩
      rcases hT.2 with ⟨id, h3, h4⟩ | ⟨⟨_, wm', u, hc, hu⟩, _⟩
      · exact chosen_head h4 hTagSafe h3
      · have := hc.unique hcore
        rw [this.2] at hu
        exact absurd hu hst

/-- The type of this name is declared in the current scope, for component `i`. -/
def Declared (lib : Lib) (tree : Tree) (fuel : Nat) (mod : Module) (env : Env) (i : Nat) (name : Name) (t : AType) : Prop :=
  ∃ T, env.cur mod.name name = some (.type T) ∧ Made lib tree fuel mod t (autoOverride mod i) T

/-- All components from position `i` on are declared. -/
def AllDeclared (lib : Lib) (tree : Tree) (fuel : Nat) (mod : Module) (env : Env) (parent : Name) : Nat → List Comp → Prop
  | _, [] => True
  | i, c :: cs => Declared lib tree fuel mod env i (makeTypeName c.name parent) c.type ∧ AllDeclared lib tree fuel mod env parent (i + 1) cs

/-- All alternatives from position `i` on are declared. -/
def AltsDeclared (lib : Lib) (tree : Tree) (fuel : Nat) (mod : Module) (env : Env) : Nat → List Named → Prop
  | _, [] => True
  | i, a :: as => Declared lib tree fuel mod env i (makeTypeName a.name) a.type ∧ AltsDeclared lib tree fuel mod env (i + 1) as

theorem memberKind_for {lib : Lib} {T : RTy Key} {o : Bool} {d : Option Value} {k : Kind} (h : memberKind lib T o d = .ok k) (t : AType) :
    kindOf lib T ⟨o || d.isSome, t⟩ k := by
  unfold memberKind at h
  split at h
  · rename_i ho
    cases h
    simp [kindOf, ho]
  · rename_i ho
    split at h
    · rename_i v
      obtain ⟨T', h', h⟩ := Res.bind_eq_ok.1 h
      obtain ⟨d, h'', h⟩ := Res.bind_eq_ok.1 h
      cases h
      exact ⟨by simp, T', v, need_ok h', need_ok h''⟩
    · cases h
      simpa [kindOf] using ho

/-- A member looks for what its type can begin with. -/
theorem label_is {tree : Tree} {fuel i : Nat} {mod : Module} {t : AType} {ls : List TagId}
    (hl : alternativeLabels tree fuel mod i t = .ok ls) : Outer tree mod (effective mod i t) (ls.map TagId.id) := by
  unfold alternativeLabels at hl
  unfold effective
  split at hl
  · rename_i ha
    cases hl
    rw [if_pos ha]
    exact ⟨1, _, by rw [outerIds], rfl⟩
  · rename_i ha
    rw [if_neg ha]
    exact ⟨fuel, ls, hl, rfl⟩

theorem members_body {lib : Lib} {tree : Tree} (hS : Supported tree) {fuel : Nat} {mod : Module} {isSet : Bool} {parent : Name} {env : Env} :
    ∀ (cs : List Comp) (i : Nat) (ms : List Member) (fs : RFields Key),
    (∀ c ∈ cs, Occurs tree mod c.type ∧ Spec.Field tree mod c.name c.type) →
    (isSet = false → mod.tagging = .automatic → ∀ c ∈ cs, c.optional = false ∧ c.default = none) →
    createMembers tree fuel mod isSet parent i cs = .ok ms → runMembers lib mod.name env ms = .ok fs →
    AllDeclared lib tree fuel mod env parent i cs → fs.Body lib tree isSet mod (slotsFrom mod i cs)
  | [], i, ms, fs, _, _, hc, hr, _ => by
    rw [createMembers] at hc
    cases hc
    rw [runMembers] at hr
    cases hr
    rfl
  | c :: cs, i, ms, fs, hoc, hau, hc, hr, hd => by
    rw [createMembers] at hc
    obtain ⟨w, h1, hc⟩ := Res.bind_eq_ok.1 hc
    obtain ⟨ls, h2, hc⟩ := Res.bind_eq_ok.1 hc
    obtain ⟨rest, h3, hc⟩ := Res.bind_eq_ok.1 hc
    cases hc
    rw [runMembers] at hr
    obtain ⟨T, h4, hr⟩ := Res.bind_eq_ok.1 hr
    obtain ⟨T', h5, hr⟩ := Res.bind_eq_ok.1 hr
    obtain ⟨k, h6, hr⟩ := Res.bind_eq_ok.1 hr
    obtain ⟨fs', h7, hr⟩ := Res.bind_eq_ok.1 hr
    cases hr
    obtain ⟨⟨T0, hcur, hmade⟩, hd'⟩ := hd
    have hT : T0 = T := by
      have := needType_ok h4
      rw [find_cur hcur] at this
      cases this; rfl
    subst hT
    obtain ⟨ho, hf⟩ := hoc c List.mem_cons_self
    have his := member_is hS ho hf hmade h1 h5
    refine ⟨_, _, rfl, memberKind_for h6 _, ?_, his.1, his.2,
      members_body hS cs (i + 1) rest fs' (fun c hc => hoc c (List.mem_cons_of_mem _ hc))
        (fun h h' c hc => hau h h' c (List.mem_cons_of_mem _ hc)) h3 h7 hd'⟩
    intro hall
    unfold componentLabels at h2
    cases isSet with
    | true => exact label_is h2
    | false =>
      have hab : (c.optional || c.default.isSome) = true := by
        rcases hall with h | h
        · cases h
        · exact h
      simp only [Bool.false_eq_true, if_false] at h2
      rw [if_pos hab] at h2
      refine label_is (fuel := fuel) ?_
      unfold alternativeLabels
      rw [if_neg fun ha => ?_]
      · exact h2
      · have := hau rfl ha c List.mem_cons_self
        rw [this.1, this.2] at hab
        cases hab

theorem alts_body {lib : Lib} {tree : Tree} (hS : Supported tree) {fuel : Nat} {mod : Module} {env : Env} :
    ∀ (as : List Named) (i : Nat) (ms : List AltMember) (fs : RAlts Key),
    (∀ a ∈ as, Occurs tree mod a.type ∧ Spec.Field tree mod a.name a.type) →
    createAlternatives tree fuel mod i as = .ok ms → runAlts mod.name env ms = .ok fs →
    AltsDeclared lib tree fuel mod env i as → fs.Body lib tree mod (choicesFrom mod i as)
  | [], i, ms, fs, _, hc, hr, _ => by
    rw [createAlternatives] at hc
    cases hc
    rw [runAlts] at hr
    cases hr
    rfl
  | c :: cs, i, ms, fs, hoc, hc, hr, hd => by
    rw [createAlternatives] at hc
    obtain ⟨w, h1, hc⟩ := Res.bind_eq_ok.1 hc
    obtain ⟨ls, h2, hc⟩ := Res.bind_eq_ok.1 hc
    obtain ⟨rest, h3, hc⟩ := Res.bind_eq_ok.1 hc
    cases hc
    rw [runAlts] at hr
    obtain ⟨T, h4, hr⟩ := Res.bind_eq_ok.1 hr
    obtain ⟨T', h5, hr⟩ := Res.bind_eq_ok.1 hr
    obtain ⟨fs', h7, hr⟩ := Res.bind_eq_ok.1 hr
    cases hr
    obtain ⟨⟨T0, hcur, hmade⟩, hd'⟩ := hd
    have hT : T0 = T := by
      have := needType_ok h4
      rw [find_cur hcur] at this
      cases this; rfl
    subst hT
    obtain ⟨ho, hf⟩ := hoc c List.mem_cons_self
    have his := member_is hS ho hf hmade h1 h5
    exact ⟨_, _, rfl, label_is h2, his.1, his.2,
      alts_body hS cs (i + 1) rest fs' (fun c hc => hoc c (List.mem_cons_of_mem _ hc)) h3 h7 hd'⟩

/-- The identifiers of an untagged CHOICE are those of its alternatives. -/
theorem choice_cid {tree : Tree} (hS : Supported tree) {fuel : Nat} {mod : Module} {as : List Named} {s : Storage}
    (hoc : Occurs tree mod (.choice as s)) {id : CId}
    (h : Chosen tree fuel mod (.choice as s) none id) : ∃ ids : List TagId, id = .choice ids ∧ Outer tree mod (.choice as s) (ids.map TagId.id) := by
  unfold Chosen overrideOr at h
  obtain ⟨info, h1, h2⟩ := Res.bind_eq_ok.1 h
  cases h2
  obtain ⟨ts, ho, hfor⟩ := identifier_own (hS.tags _ _ hoc) h1
  cases ho
  generalize hg : ([] : List Spec.Tag) = l at hfor
  cases hfor with
  | single => cases hg
  | double => cases hg
  | choice hn hne _ =>
    refine ⟨info.choiceIds, by simp [TagInfo.cid, hn, List.length_pos_iff.2 hne], ?_⟩
    have hut : mod.tagging = .automatic → ∀ a ∈ as, hasTag a.type = false :=
      fun ha a h => hS.autoUntagged _ _ _ (.choice hoc h) ha
    cases fuel with
    | zero => rw [identifier] at h1; cases h1
    | succ f =>
      rw [identifier] at h1
      obtain ⟨ids, h3, h1⟩ := Res.bind_eq_ok.1 h1
      obtain ⟨_, _, h1⟩ := Res.bind_eq_ok.1 h1
      cases h1
      refine ⟨f + 1, ids, ?_, rfl⟩
      rw [outerIds]
      unfold choiceIds at h3
      split at h3
      · rename_i ha
        rw [autoChoiceIds_none _ _ (fun a hm c n k t he => by
          have := hut ha a hm
          rw [he] at this
          cases this)] at h3
        cases h3
        rw [if_pos ha]; simp
      · rename_i ha
        rw [if_neg ha]
        exact h3

/-- What is wanted of the declarations for a type. -/
def Right (lib : Lib) (tree : Tree) (fuel : Nat) (mod : Module) (t : AType) (name : Name) (ov : Option CId) (env env' : Env) : Prop :=
  ∃ new T, SpaceStep mod.name env env' new ∧ Names lib tree mod t name T new ∧ Made lib tree fuel mod t ov T

/-- The last declaration, after some enumerations. -/
theorem right_last {lib : Lib} {tree : Tree} {fuel : Nat} {mod : Module} {t : AType} {name : Name} {ov : Option CId} {env mid env' : Env}
    {pre : List (Name × Ent)} (hs : SpaceStep mod.name env mid pre) (hp : ∀ p ∈ pre, p.2 = .enum ∧ ∃ q, p.1 = q ++ "Values") {T : RTy Key}
    (hT : Made lib tree fuel mod t ov T) (hd : mid.declare mod.name name (.type T) = .ok env') :
    Right lib tree fuel mod t name ov env env' := by
  refine ⟨_, T, hs.trans (declare_ok hd).2, ⟨by simp, ?_, ?_⟩, hT⟩
  · intro n T' h
    rcases List.mem_append.1 h with h | h
    · cases List.mem_singleton.1 h
      exact ⟨0, t, rfl, rfl, fun _ => rfl, fun h => absurd h (Nat.lt_irrefl 0)⟩
    · cases (hp _ h).1
  · intro n h
    rcases List.mem_append.1 h with h | h
    · cases List.mem_singleton.1 h
    · exact (hp _ h).2

theorem alias_run {lib : Lib} {tree : Tree} {fuel : Nat} {mod : Module} {t : AType} {name : Name} {ov : Option CId} {env env' : Env}
    {ds : List Decl} (hc : createAlias tree fuel mod name ov t = .ok ds) (hr : runAll lib tree mod.name env ds = .ok env') :
    ∃ id pre c mid T, Chosen tree fuel mod t ov id ∧ enumImport tree fuel mod t = .ok pre ∧ typeAsString tree mod fuel name id t = .ok c ∧
      runAll lib tree mod.name env pre = .ok mid ∧ denote lib tree mod.name mid c = .ok T ∧ mid.declare mod.name name (.type T) = .ok env' := by
  unfold createAlias at hc
  obtain ⟨id, h1, hc⟩ := Res.bind_eq_ok.1 hc
  obtain ⟨pre, h2, hc⟩ := Res.bind_eq_ok.1 hc
  obtain ⟨c, h3, hc⟩ := Res.bind_eq_ok.1 hc
  cases hc
  obtain ⟨mid, h4, h5⟩ := runAll_append hr
  have h6 := runAll_single h5
  rw [run] at h6
  obtain ⟨T, h7, h8⟩ := Res.bind_eq_ok.1 h6
  exact ⟨id, pre, c, mid, T, h1, h2, h3, h4, h7, h8⟩

/-- What `denote` makes of a library type. -/
theorem denote_lib {lib : Lib} {tree : Tree} {here : Name} {env : Env} {k : Builtin} {id : CId} {T : RTy Key} (h : denote lib tree here env (CppTy.lib k id) = .ok T) :
    ∃ l i, lib.leaf k = some l ∧ id.ident = some i ∧ T = .leaf l i := by
  rw [denote] at h
  obtain ⟨l, h1, h⟩ := Res.bind_eq_ok.1 h
  obtain ⟨i, h2, h⟩ := Res.bind_eq_ok.1 h
  cases h
  exact ⟨l, i, need_ok h1, need_ok h2, rfl⟩

theorem denote_enum {lib : Lib} {tree : Tree} {here v : Name} {env : Env} {id : CId} {T : RTy Key} (h : denote lib tree here env (CppTy.enumerated v id) = .ok T) :
    ∃ i, id.ident = some i ∧ T = .leaf .enum i := by
  rw [denote] at h
  obtain ⟨l, h1, h⟩ := Res.bind_eq_ok.1 h
  obtain ⟨i, h2, h⟩ := Res.bind_eq_ok.1 h
  cases h
  exact ⟨i, need_ok h2, rfl⟩

theorem denote_seqOf {lib : Lib} {tree : Tree} {here n : Name} {env : Env} {id : CId} {T : RTy Key} (h : denote lib tree here env (CppTy.seqOf n id) = .ok T) :
    ∃ i E, env.find here n = some (.type E) ∧ id.ident = some i ∧ T = .seqOf i E := by
  rw [denote] at h
  obtain ⟨E, h1, h⟩ := Res.bind_eq_ok.1 h
  obtain ⟨i, h2, h⟩ := Res.bind_eq_ok.1 h
  cases h
  exact ⟨i, E, needType_ok h1, need_ok h2, rfl⟩

/-- A simple type. -/
theorem leaf_right {lib : Lib} {tree : Tree} {fuel : Nat} {mod : Module} {k : Builtin} {name : Name} {path : Option Name} {ov : Option CId} {env env' : Env}
    {ds : List Decl} (hc : createType tree fuel mod (.leaf k) name path ov = .ok ds) (hr : runAll lib tree mod.name env ds = .ok env') :
    Right lib tree fuel mod (.leaf k) name ov env env' := by
  rw [createType] at hc
  obtain ⟨es, h1, hc⟩ := Res.bind_eq_ok.1 hc
  by_cases hk : k = .enumerated
  · subst hk
    rw [if_pos rfl] at hc
    cases hc
    rw [runAll] at hr
    obtain ⟨mid, h2, h3⟩ := Res.bind_eq_ok.1 hr
    rw [run] at h2
    have hstep := (declare_ok h2).2
    obtain ⟨id, pre, c, mid', T, h4, h5, h6, h7, h8, h9⟩ := alias_run h1 h3
    rw [enumImport] at h5
    · cases h5
      cases h7
      cases fuel with
      | zero => rw [typeAsString] at h6; cases h6
      | succ f =>
        rw [typeAsString] at h6
        cases h6
        obtain ⟨i, hi, rfl⟩ := denote_enum h8
        exact right_last (T := .leaf .enum i) hstep (by simp only [List.mem_singleton, forall_eq]; exact ⟨trivial, _, rfl⟩)
          ⟨⟨mod, .enumerated, .here rfl, .inr ⟨rfl, rfl⟩⟩, .inl ⟨id, hi, h4⟩⟩ h9
    · intros; contradiction
  · rw [if_neg hk] at hc
    cases hc
    obtain ⟨id, pre, c, mid', T, h4, h5, h6, h7, h8, h9⟩ := alias_run h1 hr
    rw [enumImport] at h5
    · cases h5
      cases h7
      cases fuel with
      | zero => rw [typeAsString] at h6; cases h6
      | succ f =>
        rw [typeAsString] at h6
        · cases h6
          obtain ⟨l, i, hl, hi, rfl⟩ := denote_lib h8
          exact right_last (T := .leaf l i) (.refl _ _) (by simp) ⟨⟨mod, k, .here rfl, .inl hl⟩, .inl ⟨id, hi, h4⟩⟩ h9
        · exact hk
    · intros; contradiction

theorem enumImport_ok {lib : Lib} {tree : Tree} {fuel : Nat} {mod : Module} {m : Option Name} {ref : Name} {ps : List AType} {pre : List Decl} {env mid : Env}
    (h : enumImport tree fuel mod (.defined m ref ps) = .ok pre) (hr : runAll lib tree mod.name env pre = .ok mid) :
    mid = env ∨ ∃ r new, resolveDefined tree mod.name fuel mod.name m ref = .ok r ∧ r.type = .leaf .enumerated ∧
      SpaceStep mod.name env mid new ∧ ∀ p ∈ new, p.2 = .enum ∧ ∃ q, p.1 = q ++ "Values" := by
  rw [enumImport] at h
  obtain ⟨r, h1, h⟩ := Res.bind_eq_ok.1 h
  split at h
  · rename_i he
    cases h
    split at hr
    · cases hr; exact .inl rfl
    · have h2 := runAll_single hr
      rw [run] at h2
      obtain ⟨_, _, h3⟩ := Res.bind_eq_ok.1 h2
      exact .inr ⟨r, _, h1, he, (declare_ok h3).2, by simp only [List.mem_singleton, forall_eq]; exact ⟨trivial, _, rfl⟩⟩
  · cases h
    cases hr
    exact .inl rfl

/-- A qualified name is defined, or forward declared. -/
theorem qualified_ok {tree : Tree} {env : Env} {m ref : Name} {T : RTy Key} (h : qualified tree env m ref = .ok T) :
    env.spaces.lookup (m, ref) = some (.type T) ∨ (env.spaces.lookup (m, ref) = none ∧ T = .ref ⟨m, ref, none⟩) := by
  unfold qualified at h
  split at h
  · rename_i e he
    rw [he]
    exact .inl (needType_ok h)
  · rename_i he
    split at h
    · cases h; exact .inr ⟨he, rfl⟩
    · cases h

/-- A reference. -/
theorem defined_right {lib : Lib} {tree : Tree} (hS : Supported tree) {fuel : Nat} {mod : Module} (hm : mod ∈ tree.modules) {m : Option Name} {ref : Name} {ps : List AType}
    {name : Name} {path : Option Name} {ov : Option CId} {env env' : Env} {ds : List Decl} (hoc : Occurs tree mod (.defined m ref ps))
    (hI : Inv lib tree env.spaces) (hsc : ScopesOk mod env.scopes)
    (hc : createType tree fuel mod (.defined m ref ps) name path ov = .ok ds) (hr : runAll lib tree mod.name env ds = .ok env') :
    Right lib tree fuel mod (.defined m ref ps) name ov env env' := by
  rw [createType] at hc
  obtain ⟨id, pre, c, mid, T, h4, h5, h6, h7, h8, h9⟩ := alias_run hc hr
  cases fuel with
  | zero => rw [typeAsString] at h6; cases h6
  | succ f =>
    rw [typeAsString] at h6
    obtain ⟨r, h10, h6⟩ := Res.bind_eq_ok.1 h6
    obtain ⟨hst, hu, wm, hcore⟩ := resolveDefined_core hS hoc h10
    have htarget : ∃ w t, target tree mod m ref = some (w, t) ∧ Core tree w t wm (untag r.type) := by
      generalize untag r.type = u at hcore
      cases hcore with
      | here h => cases h
      | reference ht hc => exact ⟨_, _, ht, hc⟩
    obtain ⟨w, t, ht, hct⟩ := htarget
    have hmid : mid = env ∨ (untag r.type = .leaf .enumerated ∧ ∃ new, SpaceStep mod.name env mid new ∧ ∀ p ∈ new, p.2 = .enum ∧ ∃ q, p.1 = q ++ "Values") := by
      rcases enumImport_ok h5 h7 with h | ⟨r', new, h1, h2, h3, h4⟩
      · exact .inl h
      · obtain ⟨_, _, wm', hcore'⟩ := resolveDefined_core hS hoc h1
        rw [h2] at hcore'
        exact .inr ⟨(hcore.unique hcore').2, new, h3, h4⟩
    rw [isGenerated_untag] at h6
    split at h6
    · rename_i hgen
      cases h6
      rcases hmid with rfl | ⟨he, _⟩
      · rw [denote] at h8
        rcases qualified_ok h8 with h8 | ⟨_, rfl⟩
        · have he := hI.ref hS ht h8
          refine right_last (.refl _ _) (by simp) ⟨he.1.of_core fun _ _ => .reference ht,
            .inr ⟨⟨⟨m, ref, ps, rfl⟩, wm, _, hcore, hgen⟩, fun hl => ?_, he.2.2⟩⟩ h9
          obtain ⟨ts, ho, hts⟩ := he.2.1 fun h => hl (.reference ht h)
          exact ⟨ts, .reference ht ho, hts⟩
        · have has := Assigns.of_target ht none
          refine right_last (T := .ref ⟨m.getD mod.name, ref, none⟩) (.refl _ _) (by simp) ⟨⟨w, t, wm, _, has, hct, hcore, hgen, fun id h => by cases h⟩,
            .inr ⟨⟨⟨m, ref, ps, rfl⟩, wm, _, hcore, hgen⟩, fun hl => ?_, fun h => by cases h⟩⟩ h9
          obtain ⟨ts, ho⟩ := ownTags_exists (hS.tags _ _ (occurs_target ht))
          exact ⟨ts, .reference ht ho, w, t, has, ho, fun h => hl (.reference ht h)⟩
      · rw [he] at hgen; cases hgen
    · rename_i hgen
      have hgen' : isStruct (untag r.type) = false := by simpa using hgen
      rcases typeAsString_untag hu hgen' h6 with ⟨k, hk, _, rfl⟩ | ⟨v, hk, rfl⟩ | ⟨hlist, rfl⟩
      · obtain ⟨l, i, hl, hi, rfl⟩ := denote_lib h8
        rw [hk] at hcore
        have hmade : Made lib tree (f + 1) mod (.defined m ref ps) ov (.leaf l i) := ⟨⟨wm, k, hcore, .inl hl⟩, .inl ⟨id, hi, h4⟩⟩
        rcases hmid with rfl | ⟨_, new, hstep, hnew⟩
        · exact right_last (.refl _ _) (by simp) hmade h9
        · exact right_last hstep hnew hmade h9
      · obtain ⟨i, hi, rfl⟩ := denote_enum h8
        rw [hk] at hcore
        have hmade : Made lib tree (f + 1) mod (.defined m ref ps) ov (.leaf .enum i) := ⟨⟨wm, .enumerated, hcore, .inr ⟨rfl, rfl⟩⟩, .inl ⟨id, hi, h4⟩⟩
        rcases hmid with rfl | ⟨_, new, hstep, hnew⟩
        · exact right_last (.refl _ _) (by simp) hmade h9
        · exact right_last hstep hnew hmade h9
      · obtain ⟨i, E, hE, hi, rfl⟩ := denote_seqOf h8
        have hmid' : mid = env := by
          rcases hmid with h | ⟨he, _⟩
          · exact h
          · rw [he] at hlist; cases hlist
        subst hmid'
        have hhere := hS.foreignLists _ _ _ _ _ _ hoc hcore hlist
        obtain ⟨hw, hwn, a, ha, han, hab⟩ := target_mem ht
        have hwm : w = mod := pairwise_unique hS.modules hw hm (by rw [hwn, hhere])
        subst hwm
        by_cases htag : hasTag r.type = true
        · rw [if_pos htag] at hE
          have he : ("" : Name) ++ "Contained" = "Contained" := by decide
          rw [he, find_space] at hE
          · exact absurd hE (hI.contained_none hS)
          · intro s hs
            rw [lookup_none_iff]
            intro b hb
            exact (hsc s hs _ hb).1 rfl
        · rw [if_neg htag, find_space] at hE
          · rw [← han] at hE
            obtain ⟨u, hu1, hent⟩ := hI.element hS hm ha hab hE
            have hocw : Occurs tree w t := .assigned hm ha hab
            have hcase : (∃ n s, untag t = .seqOf n u s) ∨ ∃ n s, untag t = .setOf n u s := by
              simp only [elemAt] at hu1
              split at hu1
              · rename_i h; cases hu1; exact .inl ⟨_, _, h⟩
              · rename_i h; cases hu1; exact .inr ⟨_, _, h⟩
              · cases hu1
            have hnd : ∀ m ref ps, untag t ≠ .defined m ref ps := by
              intro m ref ps h
              rcases hcase with ⟨n, s, h'⟩ | ⟨n, s, h'⟩ <;> (rw [h] at h'; cases h')
            have hcw := core_untag (tree := tree) (mod := w) t hnd
            have hoccw := occurs_core hcw hocw
            have hhead : E.Head tree w u := by
              refine hent.2.1 ?_
              rcases hcase with ⟨n, s, h'⟩ | ⟨n, s, h'⟩
              · rw [h'] at hoccw; exact hS.elements _ _ _ _ hoccw
              · rw [h'] at hoccw; exact hS.setElements _ _ _ _ hoccw
            refine right_last (T := .seqOf i E) (.refl _ _) (by simp) ⟨?_, .inl ⟨id, hi, h4⟩⟩ h9
            rcases hcase with ⟨n, s, h'⟩ | ⟨n, s, h'⟩
            · rw [h'] at hcw
              exact ⟨w, n, u, s, .inl (.reference ht hcw), hent.1, hhead⟩
            · rw [h'] at hcw
              exact ⟨w, n, u, s, .inr (.reference ht hcw), hent.1, hhead⟩
          · rw [← han]
            exact hsc.none ha

/-- SEQUENCE OF and SET OF, given what is declared for the elements. -/
theorem list_right {lib : Lib} {tree : Tree} (hS : Supported tree) {fuel : Nat} {mod : Module} {t u : AType} {n : Option Name} {s : Storage}
    (ht : t = .seqOf n u s ∨ t = .setOf n u s) {name : Name} {ov : Option CId} {env mid env' : Env} {es : List Decl} (hoc : Occurs tree mod t)
    (h1 : Right lib tree fuel mod u (name ++ "Contained") none env mid)
    (hc : createAlias tree fuel mod name ov t = .ok es) (hr : runAll lib tree mod.name mid es = .ok env') :
    Right lib tree fuel mod t name ov env env' := by
  obtain ⟨new, E, hstep, hnames, hmade⟩ := h1
  have hocu : Occurs tree mod u := by
    rcases ht with rfl | rfl
    · exact .seqOf hoc
    · exact .setOf hoc
  have hent := hmade.entry hS hocu
  have hlost : ¬ Lost tree mod u := by
    rcases ht with rfl | rfl
    · exact hS.elements _ _ _ _ hoc
    · exact hS.setElements _ _ _ _ hoc
  obtain ⟨id, pre, c, mid', T, h4, h5, h6, h7, h8, h9⟩ := alias_run hc hr
  have hpre : pre = [] := by
    rcases ht with rfl | rfl
    · rw [enumImport] at h5
      · cases h5; rfl
      · intros; contradiction
    · rw [enumImport] at h5
      · cases h5; rfl
      · intros; contradiction
  subst hpre
  cases h7
  have hcpp : c = .seqOf (name ++ "Contained") id := by
    cases fuel with
    | zero => rw [typeAsString] at h6; cases h6
    | succ f => rcases ht with rfl | rfl <;> (rw [typeAsString] at h6; cases h6; rfl)
  subst hcpp
  obtain ⟨i, E', hE, hi, rfl⟩ := denote_seqOf h8
  have hEE : E' = E := by
    rw [find_cur (hstep.seen _ hnames.type)] at hE
    cases hE; rfl
  subst hEE
  refine ⟨_, .seqOf i E', hstep.trans (declare_ok h9).2, ⟨by simp, ?_, ?_⟩, ?_, .inl ⟨id, hi, h4⟩⟩
  · intro q T' h
    rcases List.mem_append.1 h with h | h
    · cases List.mem_singleton.1 h
      exact ⟨0, t, rfl, rfl, fun _ => rfl, fun h => absurd h (Nat.lt_irrefl 0)⟩
    · obtain ⟨k, v, h10, h11, h12, h13⟩ := hnames.types _ _ h
      refine ⟨k + 1, v, by rw [h10, contained_succ], ?_, fun h => (Nat.succ_ne_zero _ h).elim, fun _ => ?_⟩
      · rcases ht with rfl | rfl <;> exact h11
      · cases k with
        | zero =>
          rw [h12 rfl]
          cases h11
          exact hent
        | succ k => exact h13 (Nat.succ_pos k)
  · intro q h
    rcases List.mem_append.1 h with h | h
    · cases List.mem_singleton.1 h
    · exact hnames.enums _ h
  · rcases ht with rfl | rfl
    · exact ⟨mod, n, u, s, .inl (.here rfl), hent.1, hent.2.1 hlost⟩
    · exact ⟨mod, n, u, s, .inr (.here rfl), hent.1, hent.2.1 hlost⟩

/-- A tagged type, given what is declared for the type under the tag. -/
theorem prefixed_right {lib : Lib} {tree : Tree} {fuel : Nat} {mod : Module} {c : Cls} {n : Nat} {k : TagMode} {t : AType}
    {name : Name} {ov : Option CId} {id : CId} {env env' : Env} (hid : Chosen tree fuel mod (.prefixed c n k t) ov id)
    (h : Right lib tree fuel mod t name (some id) env env') : Right lib tree fuel mod (.prefixed c n k t) name ov env env' := by
  obtain ⟨new, T, hstep, hnames, hmade⟩ := h
  refine ⟨new, T, hstep, ⟨hnames.type, ?_, hnames.enums⟩, hmade.1.of_core fun _ _ => .prefixed, ?_⟩
  · intro q T' h
    obtain ⟨k', u, h1, h2, h3, h4⟩ := hnames.types _ _ h
    cases k' with
    | zero => exact ⟨0, _, h1, rfl, h3, fun h => absurd h (Nat.lt_irrefl 0)⟩
    | succ k' => exact ⟨k' + 1, u, h1, by rw [← h2]; rfl, h3, h4⟩
  · rcases hmade.2 with ⟨id', h1, h2⟩ | ⟨⟨⟨m, ref, ps, h1⟩, wm, u, h2, h3⟩, _, hsw⟩
    · cases h2
      exact .inl ⟨id, h1, hid⟩
    · exact .inr ⟨⟨⟨m, ref, ps, h1⟩, wm, u, .prefixed h2, h3⟩, fun hl => absurd (.tagged h1 h2 h3) hl, hsw⟩

/-- A struct is one declaration. -/
theorem struct_right {lib : Lib} {tree : Tree} {fuel : Nat} {mod : Module} {t : AType} {name : Name} {ov : Option CId} {env env' : Env} {T : RTy Key}
    (hT : Made lib tree fuel mod t ov T) (hd : env.declare mod.name name (.type T) = .ok env') : Right lib tree fuel mod t name ov env env' :=
  right_last (.refl _ _) (by simp) hT hd

/-- The components' types are declared. -/
def RightAll (lib : Lib) (tree : Tree) (fuel : Nat) (mod : Module) (parent : Name) (i : Nat) (cs : List Comp) (env env' : Env) : Prop :=
  ∃ new, SpaceStep mod.name env env' new ∧ AllDeclared lib tree fuel mod env' parent i cs

/-- The alternatives' types are declared. -/
def RightAlts (lib : Lib) (tree : Tree) (fuel : Nat) (mod : Module) (i : Nat) (as : List Named) (env env' : Env) : Prop :=
  ∃ new, SpaceStep mod.name env env' new ∧ AltsDeclared lib tree fuel mod env' i as

theorem Declared.kept {lib : Lib} {tree : Tree} {fuel : Nat} {mod : Module} {env env' : Env} {i : Nat} {name : Name} {t : AType}
    (h : Declared lib tree fuel mod env i name t) {new : List (Name × Ent)} (hs : SpaceStep mod.name env env' new) :
    Declared lib tree fuel mod env' i name t := by
  obtain ⟨T, h1, h2⟩ := h
  exact ⟨T, hs.kept _ _ h1, h2⟩

/-- After the declarations of a component the scope still has no name an element type could be taken for. -/
theorem scopes_after {lib : Lib} {tree : Tree} (hS : Supported tree) {mod : Module} (hm : mod ∈ tree.modules) {n parent : Name} {t : AType}
    (hf : Spec.Field tree mod n t) {T : RTy Key} {new : List (Name × Ent)} (hn : Names lib tree mod t (makeTypeName n parent) T new) {env env' : Env}
    (hs : SpaceStep mod.name env env' new) (hne : env.scopes ≠ []) (hsc : ScopesOk mod env.scopes) :
    env'.scopes ≠ [] ∧ env'.spaces = env.spaces ∧ ScopesOk mod env'.scopes := by
  cases hscopes : env.scopes with
  | nil => exact absurd hscopes hne
  | cons s ss =>
    obtain ⟨h1, h2⟩ := hs.scopes hscopes
    refine ⟨by rw [h1]; simp, h2, ?_⟩
    rw [h1]
    rw [hscopes] at hsc
    intro s' hs' p hp
    rcases List.mem_cons.1 hs' with h | h
    · subst h
      rcases List.mem_append.1 hp with h3 | h3
      · exact hn.scope hS hm hf p h3
      · exact hsc s List.mem_cons_self p h3
    · exact hsc s' (List.mem_cons_of_mem _ h) p hp

mutual
theorem createType_right {lib : Lib} {tree : Tree} (hS : Supported tree) (fuel : Nat) {mod : Module} (hm : mod ∈ tree.modules) :
    ∀ (t : AType) (name : Name) (path : Option Name) (ov : Option CId) (env env' : Env) (ds : List Decl), Occurs tree mod t →
    Inv lib tree env.spaces → ScopesOk mod env.scopes → (∀ id, ov = some id → id.list ≠ []) →
    createType tree fuel mod t name path ov = .ok ds → runAll lib tree mod.name env ds = .ok env' → Right lib tree fuel mod t name ov env env'
  | .leaf k, name, path, ov, env, env', ds, hoc, hI, hsc, hov, hc, hr => leaf_right hc hr
  | .objField m c fs, name, path, ov, env, env', ds, hoc, hI, hsc, hov, hc, hr => by
    have := hS.tags _ _ hoc
    cases this
  | .defined m ref ps, name, path, ov, env, env', ds, hoc, hI, hsc, hov, hc, hr => defined_right hS hm hoc hI hsc hc hr
  | .prefixed c n k t, name, path, ov, env, env', ds, hoc, hI, hsc, hov, hc, hr => by
    rw [createType] at hc
    obtain ⟨id, h1, h2⟩ := Res.bind_eq_ok.1 hc
    exact prefixed_right h1 (createType_right hS fuel hm t name path (some id) env env' ds (.prefixed hoc) hI hsc
      (fun id' h => by cases h; exact prefixed_chosen hS hoc hov h1) h2 hr)
  | .seqOf n u s, name, path, ov, env, env', ds, hoc, hI, hsc, hov, hc, hr => by
    rw [createType] at hc
    obtain ⟨ds', h1, hc⟩ := Res.bind_eq_ok.1 hc
    obtain ⟨es, h2, hc⟩ := Res.bind_eq_ok.1 hc
    cases hc
    obtain ⟨mid, h3, h4⟩ := runAll_append hr
    exact list_right hS (.inl rfl) hoc (createType_right hS fuel hm u _ _ none env mid ds' (.seqOf hoc) hI hsc (fun _ h => by cases h) h1 h3) h2 h4
  | .setOf n u s, name, path, ov, env, env', ds, hoc, hI, hsc, hov, hc, hr => by
    rw [createType] at hc
    obtain ⟨ds', h1, hc⟩ := Res.bind_eq_ok.1 hc
    obtain ⟨es, h2, hc⟩ := Res.bind_eq_ok.1 hc
    cases hc
    obtain ⟨mid, h3, h4⟩ := runAll_append hr
    exact list_right hS (.inr rfl) hoc (createType_right hS fuel hm u _ _ none env mid ds' (.setOf hoc) hI hsc (fun _ h => by cases h) h1 h3) h2 h4
  | .set cs ext, name, path, ov, env, env', ds, hoc, hI, hsc, hov, hc, hr => by
    rw [createType] at hc
    obtain ⟨_, _, hc⟩ := Res.bind_eq_ok.1 hc
    obtain ⟨inner, h2, hc⟩ := Res.bind_eq_ok.1 hc
    obtain ⟨ms, h3, hc⟩ := Res.bind_eq_ok.1 hc
    obtain ⟨id, h4, hc⟩ := Res.bind_eq_ok.1 hc
    cases hc
    have hr := runAll_single hr
    rw [run] at hr
    obtain ⟨env1, h5, hr⟩ := Res.bind_eq_ok.1 hr
    obtain ⟨_, _, hr⟩ := Res.bind_eq_ok.1 hr
    obtain ⟨fs, h6, hr⟩ := Res.bind_eq_ok.1 hr
    obtain ⟨i, h7, hr⟩ := Res.bind_eq_ok.1 hr
    rw [if_pos rfl] at hr
    obtain ⟨_, _, hr⟩ := Res.bind_eq_ok.1 hr
    have hcs : ∀ c ∈ cs, Occurs tree mod c.type ∧ Spec.Field tree mod c.name c.type := fun c h => ⟨.set hoc h, .set hoc h⟩
    have hin := createComponents_right hS fuel hm cs name 0 env.enter env1 inner hcs hI
      (fun s hs p hp => by
        rcases List.mem_cons.1 hs with h | h
        · subst h; cases hp
        · exact hsc s h p hp) (by simp [Env.enter]) h2 h5
    obtain ⟨_, _, hdecl⟩ := hin
    refine struct_right (T := .set i ext fs) ⟨⟨mod, cs, .here rfl, ?_⟩, .inl ⟨id, need_ok h7, h4⟩⟩ hr
    rw [slots_from fun ha c h => hS.autoUntagged _ _ _ (.set hoc h) ha]
    exact members_body hS cs 0 ms fs hcs (fun h => by cases h) h3 h6 hdecl
  | .sequence cs ext, name, path, ov, env, env', ds, hoc, hI, hsc, hov, hc, hr => by
    rw [createType] at hc
    obtain ⟨_, _, hc⟩ := Res.bind_eq_ok.1 hc
    obtain ⟨inner, h2, hc⟩ := Res.bind_eq_ok.1 hc
    obtain ⟨ms, h3, hc⟩ := Res.bind_eq_ok.1 hc
    obtain ⟨id, h4, hc⟩ := Res.bind_eq_ok.1 hc
    cases hc
    have hr := runAll_single hr
    rw [run] at hr
    obtain ⟨env1, h5, hr⟩ := Res.bind_eq_ok.1 hr
    obtain ⟨_, _, hr⟩ := Res.bind_eq_ok.1 hr
    obtain ⟨fs, h6, hr⟩ := Res.bind_eq_ok.1 hr
    obtain ⟨i, h7, hr⟩ := Res.bind_eq_ok.1 hr
    rw [if_neg Bool.false_ne_true] at hr
    have hcs : ∀ c ∈ cs, Occurs tree mod c.type ∧ Spec.Field tree mod c.name c.type := fun c h => ⟨.sequence hoc h, .sequence hoc h⟩
    have hin := createComponents_right hS fuel hm cs name 0 env.enter env1 inner hcs hI
      (fun s hs p hp => by
        rcases List.mem_cons.1 hs with h | h
        · subst h; cases hp
        · exact hsc s h p hp) (by simp [Env.enter]) h2 h5
    obtain ⟨_, _, hdecl⟩ := hin
    refine struct_right (T := .seq i fs) ⟨⟨mod, cs, ext, .here rfl, ?_⟩, .inl ⟨id, need_ok h7, h4⟩⟩ hr
    rw [slots_from fun ha c h => hS.autoUntagged _ _ _ (.sequence hoc h) ha]
    exact members_body hS cs 0 ms fs hcs (fun _ ha c h => hS.autoMandatory _ _ _ _ hoc ha h) h3 h6 hdecl
  | .choice as s, name, path, ov, env, env', ds, hoc, hI, hsc, hov, hc, hr => by
    rw [createType] at hc
    obtain ⟨id, h4, hc⟩ := Res.bind_eq_ok.1 hc
    obtain ⟨inner, h2, hc⟩ := Res.bind_eq_ok.1 hc
    obtain ⟨ms, h3, hc⟩ := Res.bind_eq_ok.1 hc
    cases hc
    have hr := runAll_single hr
    rw [run] at hr
    obtain ⟨env1, h5, hr⟩ := Res.bind_eq_ok.1 hr
    obtain ⟨_, _, hr⟩ := Res.bind_eq_ok.1 hr
    obtain ⟨fs, h6, hr⟩ := Res.bind_eq_ok.1 hr
    obtain ⟨_, _, hr⟩ := Res.bind_eq_ok.1 hr
    have hcs : ∀ a ∈ as, Occurs tree mod a.type ∧ Spec.Field tree mod a.name a.type := fun c h => ⟨.choice hoc h, .choice hoc h⟩
    have hin := createChoices_right hS fuel hm as 0 env.enter env1 inner hcs hI
      (fun s hs p hp => by
        rcases List.mem_cons.1 hs with h | h
        · subst h; cases hp
        · exact hsc s h p hp) (by simp [Env.enter]) h2 h5
    obtain ⟨_, _, hdecl⟩ := hin
    have hb := alts_body hS as 0 ms fs hcs h3 h6 hdecl
    have hut : mod.tagging = .automatic → ∀ a ∈ as, hasTag a.type = false := fun ha a h => hS.autoUntagged _ _ _ (.choice hoc h) ha
    refine struct_right (T := .choice id.choiceIdent fs) ⟨⟨mod, as, s, .here rfl, by rw [choices_from hut]; exact hb, ?_⟩, .inl ⟨id, rfl, h4⟩⟩ hr
    cases ov with
    | some id' =>
      cases h4
      have := hov _ rfl
      cases id with
      | single => trivial
      | double => trivial
      | choice l => exact absurd rfl this
    | none =>
      obtain ⟨ids, rfl, h8⟩ := choice_cid hS hoc h4
      exact h8
theorem createComponents_right {lib : Lib} {tree : Tree} (hS : Supported tree) (fuel : Nat) {mod : Module} (hm : mod ∈ tree.modules) :
    ∀ (cs : List Comp) (parent : Name) (i : Nat) (env env' : Env) (ds : List Decl),
    (∀ c ∈ cs, Occurs tree mod c.type ∧ Spec.Field tree mod c.name c.type) →
    Inv lib tree env.spaces → ScopesOk mod env.scopes → env.scopes ≠ [] →
    createComponents tree fuel mod parent i cs = .ok ds → runAll lib tree mod.name env ds = .ok env' → RightAll lib tree fuel mod parent i cs env env'
  | [], parent, i, env, env', ds, _, hI, hsc, hne, hc, hr => by
    rw [createComponents] at hc
    cases hc
    cases hr
    exact ⟨[], .refl _ _, trivial⟩
  | .mk n t o d co st :: cs, parent, i, env, env', ds, hcs, hI, hsc, hne, hc, hr => by
    rw [createComponents] at hc
    obtain ⟨ds', h1, hc⟩ := Res.bind_eq_ok.1 hc
    obtain ⟨es, h2, hc⟩ := Res.bind_eq_ok.1 hc
    cases hc
    obtain ⟨mid, h3, h4⟩ := runAll_append hr
    obtain ⟨ho, hf⟩ := hcs _ List.mem_cons_self
    obtain ⟨new, T, hstep, hnames, hmade⟩ := createType_right hS fuel hm t _ _ (autoOverride mod i) env mid ds' ho hI hsc (fun _ h => autoOverride_ne h) h1 h3
    obtain ⟨h5, h6, h7⟩ := scopes_after hS hm hf hnames hstep hne hsc
    obtain ⟨new', hstep', hdecl⟩ := createComponents_right hS fuel hm cs parent (i + 1) mid env' es
      (fun c h => hcs c (List.mem_cons_of_mem _ h)) (by rw [h6]; exact hI) h7 h5 h2 h4
    exact ⟨_, hstep.trans hstep', Declared.kept ⟨T, hstep.seen _ hnames.type, hmade⟩ hstep', hdecl⟩
theorem createChoices_right {lib : Lib} {tree : Tree} (hS : Supported tree) (fuel : Nat) {mod : Module} (hm : mod ∈ tree.modules) :
    ∀ (as : List Named) (i : Nat) (env env' : Env) (ds : List Decl),
    (∀ a ∈ as, Occurs tree mod a.type ∧ Spec.Field tree mod a.name a.type) →
    Inv lib tree env.spaces → ScopesOk mod env.scopes → env.scopes ≠ [] →
    createChoices tree fuel mod i as = .ok ds → runAll lib tree mod.name env ds = .ok env' → RightAlts lib tree fuel mod i as env env'
  | [], i, env, env', ds, _, hI, hsc, hne, hc, hr => by
    rw [createChoices] at hc
    cases hc
    cases hr
    exact ⟨[], .refl _ _, trivial⟩
  | .mk n t :: cs, i, env, env', ds, hcs, hI, hsc, hne, hc, hr => by
    rw [createChoices] at hc
    obtain ⟨ds', h1, hc⟩ := Res.bind_eq_ok.1 hc
    obtain ⟨es, h2, hc⟩ := Res.bind_eq_ok.1 hc
    cases hc
    obtain ⟨mid, h3, h4⟩ := runAll_append hr
    obtain ⟨ho, hf⟩ := hcs _ List.mem_cons_self
    obtain ⟨new, T, hstep, hnames, hmade⟩ := createType_right hS fuel hm t _ _ (autoOverride mod i) env mid ds' ho hI hsc (fun _ h => autoOverride_ne h) h1 h3
    obtain ⟨h5, h6, h7⟩ := scopes_after hS hm hf hnames hstep hne hsc
    obtain ⟨new', hstep', hdecl⟩ := createChoices_right hS fuel hm cs (i + 1) mid env' es
      (fun c h => hcs c (List.mem_cons_of_mem _ h)) (by rw [h6]; exact hI) h7 h5 h2 h4
    exact ⟨_, hstep.trans hstep', Declared.kept ⟨T, hstep.seen _ hnames.type, hmade⟩ hstep', hdecl⟩
end

theorem runBody_inv {lib : Lib} {tree : Tree} (hS : Supported tree) {fuel : Nat} {mod : Module} (hm : mod ∈ tree.modules) :
    ∀ (as : List Assignment) (env env' : Env), (∀ a ∈ as, a ∈ mod.assignments) → env.scopes = [] → Inv lib tree env.spaces →
    runBody lib tree fuel mod env as = .ok env' →
    env'.scopes = [] ∧ Inv lib tree env'.spaces ∧ (∀ m n e, env.spaces.lookup (m, n) = some e → env'.spaces.lookup (m, n) = some e) ∧
      ∀ a ∈ as, ∀ t, a.body = .type t → ∃ T, env'.spaces.lookup (mod.name, a.name) = some (.type T) ∧ T.isRef = false
  | [], env, env', _, hsc, hI, h => by
    rw [runBody] at h
    cases h
    exact ⟨hsc, hI, fun _ _ _ h => h, fun _ h => by cases h⟩
  | a :: as, env, env', has, hsc, hI, h => by
    rw [runBody] at h
    obtain ⟨ds, h1, h⟩ := Res.bind_eq_ok.1 h
    obtain ⟨mid, h2, h⟩ := Res.bind_eq_ok.1 h
    obtain ⟨_, hbase, h⟩ := Res.bind_eq_ok.1 h
    have ha := has a List.mem_cons_self
    have key : mid.scopes = [] ∧ Inv lib tree mid.spaces ∧ (∀ m n e, env.spaces.lookup (m, n) = some e → mid.spaces.lookup (m, n) = some e) ∧
        ∀ t, a.body = .type t → ∃ T, mid.spaces.lookup (mod.name, a.name) = some (.type T) := by
      unfold createAssignment at h1
      split at h1
      · rename_i t hb
        obtain ⟨new, T, hstep, hnames, hmade⟩ := createType_right hS fuel hm t a.name _ none env mid ds (.assigned hm ha hb) hI
          (by rw [hsc]; intro s hs; cases hs) (fun _ h => by cases h) h1 h2
        obtain ⟨h3, h4⟩ := hstep.spaces hsc
        refine ⟨h3, ?_, fun m n e hl => hstep.lookup hsc hl, fun t' _ => ⟨T, ?_⟩⟩
        · intro m n T' hmem
          rw [h4] at hmem
          rcases List.mem_append.1 hmem with hmem | hmem
          · obtain ⟨⟨q, e⟩, hq, he⟩ := List.mem_map.1 hmem
            cases he
            obtain ⟨k, u, h5, h6, h7, h8⟩ := hnames.types _ _ hq
            refine ⟨mod, a, t, k, u, hm, rfl, ha, hb, h5, h6, ?_⟩
            cases k with
            | zero =>
              cases h6
              rw [h7 rfl]
              exact hmade.entry hS (.assigned hm ha hb)
            | succ k => exact h8 (Nat.succ_pos k)
          · exact hI _ _ _ hmem
        · have := hstep.seen _ hnames.type
          unfold Env.cur at this
          rw [h3] at this
          exact this
      · rename_i hb
        cases h1
        cases h2
        exact ⟨hsc, hI, fun _ _ _ h => h, fun t h => by rw [hb] at h; cases h⟩
      · cases h1
      · rename_i hb
        cases h1
        cases h2
        exact ⟨hsc, hI, fun _ _ _ h => h, fun t h => by rw [hb] at h; cases h⟩
    obtain ⟨k1, k2, k3, k4⟩ := key
    obtain ⟨r1, r2, r3, r4⟩ := runBody_inv hS hm as mid env' (fun b hb => has b (List.mem_cons_of_mem _ hb)) k1 k2 h
    refine ⟨r1, r2, fun m n e h => r3 m n e (k3 m n e h), fun b hb t ht => ?_⟩
    rcases List.mem_cons.1 hb with hb | hb
    · subst hb
      obtain ⟨T, hT⟩ := k4 t ht
      refine ⟨T, r3 _ _ _ hT, ?_⟩
      rw [hT] at hbase
      cases T with
      | ref k => cases hbase
      | _ => rfl
    · exact r4 b hb t ht

theorem runModules_inv {lib : Lib} {tree : Tree} (hS : Supported tree) {fuel : Nat} :
    ∀ (ms : List Module) (env env' : Env), (∀ m ∈ ms, m ∈ tree.modules) → env.scopes = [] → Inv lib tree env.spaces →
    runModules lib tree fuel env ms = .ok env' →
    Inv lib tree env'.spaces ∧ (∀ m n e, env.spaces.lookup (m, n) = some e → env'.spaces.lookup (m, n) = some e) ∧
      ∀ mod ∈ ms, ∀ a ∈ mod.assignments, ∀ t, a.body = .type t → ∃ T, env'.spaces.lookup (mod.name, a.name) = some (.type T) ∧ T.isRef = false
  | [], env, env', _, hsc, hI, h => by
    rw [runModules] at h
    cases h
    exact ⟨hI, fun _ _ _ h => h, fun _ h => by cases h⟩
  | m :: ms, env, env', hms, hsc, hI, h => by
    rw [runModules] at h
    obtain ⟨mid, h1, h2⟩ := Res.bind_eq_ok.1 h
    obtain ⟨k1, k2, k3, k4⟩ := runBody_inv hS (hms m List.mem_cons_self) m.assignments env mid (fun _ h => h) hsc hI h1
    obtain ⟨r1, r2, r3⟩ := runModules_inv hS ms mid env' (fun b hb => hms b (List.mem_cons_of_mem _ hb)) k1 k2 h2
    refine ⟨r1, fun m n e h => r2 m n e (k3 m n e h), fun b hb a ha t ht => ?_⟩
    rcases List.mem_cons.1 hb with hb | hb
    · subst hb
      obtain ⟨T, hT, hr⟩ := k4 a ha t ht
      exact ⟨T, r2 _ _ _ hT, hr⟩
    · exact r3 b hb a ha t ht

/-- Every assigned type has a C++ type. -/
theorem generate_exists {lib : Lib} {tree : Tree} (hS : Supported tree) {fuel : Nat} {env : Env} (h : generate lib fuel tree = .ok env)
    {mod : Module} (hm : mod ∈ tree.modules) {a : Assignment} (ha : a ∈ mod.assignments) {t : AType} (hb : a.body = .type t) :
    ∃ T, env.typeOf mod.name a.name = some T ∧ T.isRef = false := by
  obtain ⟨_, _, h3⟩ := runModules_inv hS tree.modules ⟨[], []⟩ env (fun _ h => h) rfl (fun m n T h => by cases h) h
  obtain ⟨T, hT, hr⟩ := h3 mod hm a ha t hb
  exact ⟨T, by unfold Env.typeOf; rw [hT], hr⟩

/-- Every assigned type has a C++ type of its structure, and of its tags unless they are lost. -/
theorem generate_entry {lib : Lib} {tree : Tree} (hS : Supported tree) {fuel : Nat} {env : Env} (h : generate lib fuel tree = .ok env)
    {mod : Module} (hm : mod ∈ tree.modules) {a : Assignment} (ha : a ∈ mod.assignments) {t : AType} (hb : a.body = .type t)
    {T : RTy Key} (hT : env.typeOf mod.name a.name = some T) : Entry lib tree mod t T := by
  obtain ⟨hI, _, _⟩ := runModules_inv hS tree.modules ⟨[], []⟩ env (fun _ h => h) rfl (fun m n T h => by cases h) h
  have hl : env.spaces.lookup (mod.name, a.name) = some (.type T) := by
    unfold Env.typeOf at hT
    split at hT
    · rename_i h; cases hT; exact h
    · cases hT
  obtain ⟨wm', a', t', k, u, hw', hn', ha', hab', hc, hu, he⟩ := hI _ _ _ (lookup_mem hl)
  have h1 : wm' = mod := pairwise_unique hS.modules hw' hm hn'
  subst h1
  cases k with
  | zero =>
    have h2 : a' = a := pairwise_unique (hS.assignments _ hm) ha' ha hc.symm
    subst h2
    rw [hb] at hab'
    cases hab'
    cases hu
    exact he
  | succ k => exact absurd hc ((hS.typeNames _ hm _ ha).2 (contained k a'.name))

end FastBer.Ast.Fwd
