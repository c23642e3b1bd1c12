import Verif.Proofs.SettleEmit
/-!
# What is written for supported, legal, compilable schemas is valid C++
-/
namespace FastBer.Ast
open Spec FastBer.Props

/-! ## Declaring names -/

theorem declare_total {env : Env} {here n : Name} (e : Ent) (h : env.cur here n = none) : ∃ env', env.declare here n e = .ok env' := by
  obtain ⟨sp, sc⟩ := env
  cases sc with
  | nil =>
    simp only [Env.cur] at h
    simp only [Env.declare, h]
    exact ⟨_, rfl⟩
  | cons s ss =>
    simp only [Env.cur] at h
    simp only [Env.declare, h]
    exact ⟨_, rfl⟩

theorem lookup_append_none {α β : Type} [BEq α] [LawfulBEq α] {l l' : List (α × β)} {a : α} (h : ∀ p ∈ l, p.1 ≠ a) : (l ++ l').lookup a = l'.lookup a := by
  induction l with
  | nil => rfl
  | cons p l ih =>
    rw [List.cons_append, List.lookup_cons]
    have : (a == p.1) = false := by
      have := h p List.mem_cons_self
      simpa using fun he => this he.symm
    rw [this]
    exact ih fun q hq => h q (List.mem_cons_of_mem _ hq)

/-- A name that is not among the new ones is as before. -/
theorem SpaceStep.other {here : Name} {env env' : Env} {new : List (Name × Ent)} (h : SpaceStep here env env' new) {n : Name} (hn : ∀ p ∈ new, p.1 ≠ n) :
    env'.cur here n = env.cur here n := by
  rw [h.eq]
  obtain ⟨sp, sc⟩ := env
  cases sc with
  | nil =>
    simp only [Env.adds, Env.cur]
    refine lookup_append_none fun p hp => ?_
    obtain ⟨q, hq, rfl⟩ := List.mem_map.1 hp
    intro he
    exact hn q hq (Prod.mk.inj he).2
  | cons s ss =>
    simp only [Env.adds, Env.cur]
    exact lookup_append_none hn

theorem runAll_append_ok {lib : Lib} {here : Name} : ∀ {ds es : List Decl} {env mid env' : Env}, Decl.runAll lib here env ds = .ok mid →
    Decl.runAll lib here mid es = .ok env' → Decl.runAll lib here env (ds ++ es) = .ok env'
  | [], es, env, mid, env', h, h' => by cases h; exact h'
  | d :: ds, es, env, mid, env', h, h' => by
    simp only [Decl.runAll] at h
    obtain ⟨m, h1, h2⟩ := Res.bind_eq_ok.1 h
    simp only [List.cons_append, Decl.runAll, h1, Res.ok_bind]
    exact runAll_append_ok h2 h'

theorem runAll_one {lib : Lib} {here : Name} {d : Decl} {env env' : Env} (h : d.run lib here env = .ok env') : Decl.runAll lib here env [d] = .ok env' := by
  simp only [Decl.runAll, h, Res.ok_bind]

/-! ## Names -/

theorem makeTypeName_member (n parent : Name) : makeTypeName n parent = memberName n parent := rfl

theorem makeTypeName_alone {n : Name} (h : typeName n ≠ "") : makeTypeName n = typeName n := by
  show (if typeName n = "" then _ else _) = _
  rw [if_neg h]; rfl

theorem underscore_values (a b : Name) : a ++ "_" ≠ b ++ "Values" := by
  intro h
  have := congrArg (fun s => s.toList.getLast?) h
  simp [String.toList_append] at this

/-- Names that end in `Values` are those of enumerations. -/
def EnumScopes (scopes : List (List (Name × Ent))) : Prop := ∀ s ∈ scopes, ∀ p ∈ s, ∀ q, p.1 = q ++ "Values" → p.2 = .enum

theorem findSome_lookup {scopes : List (List (Name × Ent))} (h : EnumScopes scopes) {q : Name} {e : Ent}
    (he : scopes.findSome? (fun s => s.lookup (q ++ "Values")) = some e) : e = .enum := by
  obtain ⟨s, hs, hl⟩ := List.exists_of_findSome?_eq_some he
  exact h s hs _ (lookup_mem hl) q rfl

theorem find_values {env : Env} (h : EnumScopes env.scopes) {here q : Name} (hl : env.spaces.lookup (here, q ++ "Values") = some .enum) :
    env.find here (q ++ "Values") = some .enum := by
  unfold Env.find
  split
  · rename_i e he
    rw [findSome_lookup h he]
  · exact hl

/-- What is declared for a component has no other names that end in `Values`. -/
theorem Names.values {lib : Lib} {tree : Tree} (hC : CompilableNames tree) {mod : Module} {n parent : Name} {t : AType} (hf : Spec.Field tree mod n t) {T : Ty}
    {new : List (Name × Ent)} (h : Names lib tree mod t (makeTypeName n parent) T new) : ∀ p ∈ new, ∀ q, p.1 = q ++ "Values" → p.2 = .enum := by
  intro p hp q hq
  obtain ⟨a, e⟩ := p
  cases e with
  | enum => rfl
  | type T' =>
    obtain ⟨k, u, rfl, _⟩ := h.types _ _ hp
    cases k with
    | zero =>
      simp only [contained] at hq
      rcases makeTypeName_eq n parent with he | he
      · rw [he] at hq; exact absurd hq (hC.fieldValues _ _ _ hf q)
      · rw [he] at hq; exact absurd hq (underscore_values _ _)
    | succ k => exact absurd hq.symm (values_ne _ _)

/-! ## Identifiers -/

theorem ident_some {id : CId} (h : id.list ≠ []) : ∃ i, id.ident = some i := by
  cases id with
  | single i => exact ⟨_, rfl⟩
  | double o i => exact ⟨_, rfl⟩
  | choice l => exact absurd rfl h

theorem ownTags_core {tree : Tree} {mod wm : Module} {t u : AType} {ts : List Spec.Tag} (h : OwnTags tree mod t ts) (hc : Core tree mod t wm u)
    (hu : ∀ as s, u ≠ .choice as s) : ts ≠ [] := by
  rintro rfl
  obtain ⟨wm', as, s, h'⟩ := ownTags_nil_core h
  exact hu as s (hc.unique h').2

theorem chosen_ident {tree : Tree} (hS : Supported tree) {fuel : Nat} {mod wm : Module} {t u : AType} {ov : Option CId} {id : CId} (ho : Occurs tree mod t)
    (hc : Core tree mod t wm u) (hu : ∀ as s, u ≠ .choice as s) (hov : ∀ id, ov = some id → id.list ≠ []) (h : Chosen tree fuel mod t ov id) :
    ∃ i, id.ident = some i := by
  cases ov with
  | some id' => cases h; exact ident_some (hov _ rfl)
  | none =>
    unfold Chosen overrideOr at h
    obtain ⟨i, h1, h2⟩ := Res.bind_eq_ok.1 h
    cases h2
    obtain ⟨ts, ho', hf⟩ := identifier_own (hS.tags _ _ ho) h1
    exact ident_some (by rw [hf.list]; exact ownTags_core ho' hc hu)

/-! ## Members -/

theorem memberTy_total {lib : Lib} {tree : Tree} (hS : Supported tree) {fuel : Nat} {mod : Module} {n : Name} {t : AType} {T : Ty} {w : Option CId}
    (ho : Occurs tree mod t) (hT : T.Body noHoles lib tree mod t) (hw : componentFunction tree fuel mod n t = .ok w) : ∃ T', memberTy T w = .ok T' := by
  unfold componentFunction at hw
  obtain ⟨r, h1, h2⟩ := Res.bind_eq_ok.1 hw
  obtain ⟨wm, hcore⟩ := resolveType_ref hS ho h1
  rw [isGenerated_untag] at h2
  split at h2
  · rename_i hst
    obtain ⟨info, h3, h4⟩ := Res.bind_eq_ok.1 h2
    split at h4
    · cases h4; exact ⟨T, rfl⟩
    · cases h4
      obtain ⟨ts, ho', hf⟩ := identifier_own (hS.tags _ _ ho) h3
      cases T with
      | leaf l i =>
        obtain ⟨wm', k, hc, _⟩ := hT
        rw [(hcore.unique hc).2] at hst
        cases hst
      | seqOf i T =>
        obtain ⟨wm', n, u, s, hc, _⟩ := hT
        rcases hc with hc | hc <;> (rw [(hcore.unique hc).2] at hst; cases hst)
      | seq i fs =>
        obtain ⟨wm', cs, e, hc, _⟩ := hT
        obtain ⟨j, hj⟩ := ident_some (id := info.cid) (by rw [hf.list]; exact ownTags_core ho' hc (by simp))
        exact ⟨.seq j fs, by simp only [memberTy, Ty.withId, hj, need, Res.ok_bind]⟩
      | set i e fs =>
        obtain ⟨wm', cs, hc, _⟩ := hT
        obtain ⟨j, hj⟩ := ident_some (id := info.cid) (by rw [hf.list]; exact ownTags_core ho' hc (by simp))
        exact ⟨.set j e fs, by simp only [memberTy, Ty.withId, hj, need, Res.ok_bind]⟩
      | choice cid as => exact ⟨_, rfl⟩
  · cases h2; exact ⟨T, rfl⟩

theorem memberKind_total {lib : Lib} {tree : Tree} {mod : Module} {c : Comp} {T : Ty} (hT : T.Body noHoles lib tree mod c.type)
    (hd : ∀ v, c.optional = false → c.default = some v → ∃ wm k, Core tree mod c.type wm (.leaf k) ∧
      ∀ l i, lib.leaf k = some l ∨ (k = .enumerated ∧ l = .enum) → (lib.default (.leaf l i) v).isSome) :
    ∃ k, memberKind lib T c.optional c.default = .ok k := by
  unfold memberKind
  cases ho : c.optional with
  | true => exact ⟨_, rfl⟩
  | false =>
    cases hv : c.default with
    | none => exact ⟨_, rfl⟩
    | some v =>
      obtain ⟨wm, k, hc, hl⟩ := hd v ho hv
      cases T with
      | leaf l i =>
        obtain ⟨wm', k', hc', hl'⟩ := hT
        have := (hc.unique hc').2
        cases this
        obtain ⟨d, hd'⟩ := Option.isSome_iff_exists.1 (hl l i hl')
        exact ⟨.default d, by simp only [Bool.false_eq_true, if_false, hd', need, Res.ok_bind]⟩
      | seqOf i T =>
        obtain ⟨wm', n, u, s, hc', _⟩ := hT
        rcases hc' with hc' | hc' <;> (have := (hc.unique hc').2; cases this)
      | seq i fs => obtain ⟨wm', cs, e, hc', _⟩ := hT; have := (hc.unique hc').2; cases this
      | set i e fs => obtain ⟨wm', cs, hc', _⟩ := hT; have := (hc.unique hc').2; cases this
      | choice cid as => obtain ⟨wm', as', s, hc', _⟩ := hT; have := (hc.unique hc').2; cases this

theorem effective_core {tree : Tree} {mod wm : Module} {i : Nat} {t u : AType} (h : Core tree mod (effective mod i t) wm u) : Core tree mod t wm u := by
  unfold effective at h
  split at h
  · cases h with
    | here h => cases h
    | prefixed h => exact h
  · exact h

theorem runMembers_total {lib : Lib} {tree : Tree} (hS : Supported tree) {fuel : Nat} {mod : Module} {isSet : Bool} {parent : Name} {env : Env} :
    ∀ (cs : List Comp) (i : Nat) (ms : List Member),
    (∀ c ∈ cs, Occurs tree mod c.type ∧ Spec.Field tree mod c.name c.type) →
    (∀ c ∈ cs, ∀ v, c.optional = false → c.default = some v → ∃ wm k, Core tree mod c.type wm (.leaf k) ∧
      ∀ l i, lib.leaf k = some l ∨ (k = .enumerated ∧ l = .enum) → (lib.default (.leaf l i) v).isSome) →
    createMembers tree fuel mod isSet parent i cs = .ok ms → AllDeclared lib tree fuel mod env parent i cs → ∃ fs, runMembers lib mod.name env ms = .ok fs
  | [], i, ms, _, _, hc, _ => by
    rw [createMembers] at hc
    cases hc
    exact ⟨_, rfl⟩
  | c :: cs, i, ms, hoc, hdef, hc, hd => by
    rw [createMembers] at hc
    obtain ⟨w, h1, hc⟩ := Res.bind_eq_ok.1 hc
    obtain ⟨ls, h2, hc⟩ := Res.bind_eq_ok.1 hc
    obtain ⟨rest, h3, hc⟩ := Res.bind_eq_ok.1 hc
    cases hc
    obtain ⟨⟨T, hcur, hmade⟩, hd'⟩ := hd
    obtain ⟨ho, hf⟩ := hoc c List.mem_cons_self
    obtain ⟨T', hT'⟩ := memberTy_total hS ho hmade.1 h1
    have his := member_is hS ho hf hmade h1 hT'
    obtain ⟨k, hk⟩ := memberKind_total (his.1.of_core fun _ _ => effective_core) (hdef c List.mem_cons_self)
    obtain ⟨fs, hfs⟩ := runMembers_total hS cs (i + 1) rest (fun c hc => hoc c (List.mem_cons_of_mem _ hc)) (fun c hc => hdef c (List.mem_cons_of_mem _ hc)) h3 hd'
    exact ⟨.cons k (ls.map TagId.id) T' fs, by simp only [runMembers, find_cur hcur, needType, Res.ok_bind, hT', hk, hfs]⟩

theorem runAlts_total {lib : Lib} {tree : Tree} (hS : Supported tree) {fuel : Nat} {mod : Module} {env : Env} :
    ∀ (as : List Named) (i : Nat) (ms : List AltMember),
    (∀ a ∈ as, Occurs tree mod a.type ∧ Spec.Field tree mod a.name a.type) →
    createAlternatives tree fuel mod i as = .ok ms → AltsDeclared lib tree fuel mod env i as → ∃ fs, runAlts lib mod.name env ms = .ok fs
  | [], i, ms, _, hc, _ => by
    rw [createAlternatives] at hc
    cases hc
    exact ⟨_, rfl⟩
  | c :: cs, i, ms, hoc, hc, hd => by
    rw [createAlternatives] at hc
    obtain ⟨w, h1, hc⟩ := Res.bind_eq_ok.1 hc
    obtain ⟨ls, h2, hc⟩ := Res.bind_eq_ok.1 hc
    obtain ⟨rest, h3, hc⟩ := Res.bind_eq_ok.1 hc
    cases hc
    obtain ⟨⟨T, hcur, hmade⟩, hd'⟩ := hd
    obtain ⟨ho, hf⟩ := hoc c List.mem_cons_self
    obtain ⟨T', hT'⟩ := memberTy_total hS ho hmade.1 h1
    obtain ⟨fs, hfs⟩ := runAlts_total hS cs (i + 1) rest (fun c hc => hoc c (List.mem_cons_of_mem _ hc)) h3 hd'
    exact ⟨.cons (ls.map TagId.id) T' fs, by simp only [runAlts, find_cur hcur, needType, Res.ok_bind, hT', hfs]⟩

/-! ## Labels -/

theorem idOf_inj {x y : Spec.Tag} (h : idOf x = idOf y) : x = y := by
  obtain ⟨c, n⟩ := x
  obtain ⟨c', n'⟩ := y
  simp only [idOf, Id.mk.injEq] at h
  obtain ⟨h1, h2⟩ := h
  obtain rfl : n = n' := by omega
  cases c <;> cases c' <;> first | rfl | cases h1

/-- The labels for a type in a module without automatic tags. -/
theorem outerIds_labels {tree : Tree} (hS : Supported tree) (hC : CompilableNames tree) (hL : Legal tree) {mod : Module} {t : AType} (ho : Occurs tree mod t)
    {f : Nat} {ids : List TagId} (h : outerIds tree f mod t = .ok ids) :
    (ids.map TagId.id).Nodup ∧ ∀ x ∈ ids.map TagId.id, ∃ tag, idOf tag = x ∧ Outermost tree mod t tag := by
  obtain ⟨f', i, hi⟩ := identifier_exists hS hC hL (hS.tags _ _ ho) ho
  obtain ⟨h1, _, h3, h4, f2, h5⟩ := identifier_outer (clear_of_occurs hS hC ho) hi
  have := outerIds_unique h h5
  subst this
  refine ⟨?_, fun x hx => ?_⟩
  · rw [List.Nodup, List.pairwise_map]
    refine List.Pairwise.imp_of_mem (fun {a b} ha hb hne he => hne ?_) h4
    rw [TagId.id_eq, TagId.id_eq] at he
    exact (h3 a ha).ext (h3 b hb) (idOf_inj he)
  · obtain ⟨i, hi, rfl⟩ := List.mem_map.1 hx
    exact ⟨i.tag, (TagId.id_eq i).symm, (h1 _).1 (List.mem_map.2 ⟨i, hi, rfl⟩)⟩

theorem createMembers_get {tree : Tree} {fuel : Nat} {mod : Module} {isSet : Bool} {parent : Name} : ∀ (cs : List Comp) (i : Nat) (ms : List Member),
    createMembers tree fuel mod isSet parent i cs = .ok ms → ∀ j m, ms[j]? = some m →
    ∃ c, cs[j]? = some c ∧ componentLabels tree fuel mod isSet (i + j) c = .ok m.labels
  | [], i, ms, hc, j, m, hm => by
    rw [createMembers] at hc
    cases hc
    cases hm
  | c :: cs, i, ms, hc, j, m, hm => by
    rw [createMembers] at hc
    obtain ⟨w, h1, hc⟩ := Res.bind_eq_ok.1 hc
    obtain ⟨ls, h2, hc⟩ := Res.bind_eq_ok.1 hc
    obtain ⟨rest, h3, hc⟩ := Res.bind_eq_ok.1 hc
    cases hc
    cases j with
    | zero => cases hm; exact ⟨c, rfl, h2⟩
    | succ j =>
      obtain ⟨c', h4, h5⟩ := createMembers_get cs (i + 1) rest h3 j m (by simpa using hm)
      exact ⟨c', by simpa using h4, by rw [show i + (j + 1) = i + 1 + j by omega]; exact h5⟩

theorem createAlternatives_get {tree : Tree} {fuel : Nat} {mod : Module} : ∀ (as : List Named) (i : Nat) (ms : List AltMember),
    createAlternatives tree fuel mod i as = .ok ms → ∀ j m, ms[j]? = some m →
    ∃ a, as[j]? = some a ∧ alternativeLabels tree fuel mod (i + j) a.type = .ok m.labels
  | [], i, ms, hc, j, m, hm => by
    rw [createAlternatives] at hc
    cases hc
    cases hm
  | c :: cs, i, ms, hc, j, m, hm => by
    rw [createAlternatives] at hc
    obtain ⟨w, h1, hc⟩ := Res.bind_eq_ok.1 hc
    obtain ⟨ls, h2, hc⟩ := Res.bind_eq_ok.1 hc
    obtain ⟨rest, h3, hc⟩ := Res.bind_eq_ok.1 hc
    cases hc
    cases j with
    | zero => cases hm; exact ⟨c, rfl, h2⟩
    | succ j =>
      obtain ⟨c', h4, h5⟩ := createAlternatives_get cs (i + 1) rest h3 j m (by simpa using hm)
      exact ⟨c', by simpa using h4, by rw [show i + (j + 1) = i + 1 + j by omega]; exact h5⟩

/-- Labels that are positions, or the outermost tags of types that do not begin alike, are distinct. -/
theorem labels_nodup {tree : Tree} (hS : Supported tree) (hC : CompilableNames tree) (hL : Legal tree) {mod : Module} {fuel : Nat} {α : Type} {g : α → List TagId}
    {ms : List α} {ty : Nat → Option AType} (hm : ∀ j m, ms[j]? = some m → ∃ t, ty j = some t ∧ Occurs tree mod t ∧ alternativeLabels tree fuel mod j t = .ok (g m))
    (hd : mod.tagging ≠ .automatic → ∀ i j t u, i ≠ j → ty i = some t → ty j = some u → ¬ Clash tree mod t u) :
    distinctLabels (ms.flatMap fun m => (g m).map TagId.id) = .ok () := by
  unfold distinctLabels
  rw [if_pos]
  rw [nodup_flatMap_idx]
  by_cases ha : mod.tagging = .automatic
  · have hl : ∀ j m, ms[j]? = some m → g m = [.ofTag .contextSpecific j] := by
      intro j m h
      obtain ⟨t, _, _, h2⟩ := hm j m h
      unfold alternativeLabels at h2
      rw [if_pos ha] at h2
      exact (Res.ok.inj h2).symm
    refine ⟨fun a h => ?_, fun i j a b hij hi hj x hx hy => ?_⟩
    · obtain ⟨j, hj⟩ := List.getElem?_of_mem h
      rw [hl j a hj]; simp
    · rw [hl i a hi] at hx
      rw [hl j b hj] at hy
      simp only [List.map_cons, List.map_nil, List.mem_singleton] at hx hy
      rw [hx] at hy
      simp [TagId.id, TagId.ofTag] at hy
      omega
  · have hl : ∀ j m, ms[j]? = some m → ∃ t, ty j = some t ∧ Occurs tree mod t ∧ outerIds tree fuel mod t = .ok (g m) := by
      intro j m h
      obtain ⟨t, h1, h2, h3⟩ := hm j m h
      unfold alternativeLabels at h3
      rw [if_neg ha] at h3
      exact ⟨t, h1, h2, h3⟩
    refine ⟨fun a h => ?_, fun i j a b hij hi hj x hx hy => ?_⟩
    · obtain ⟨j, hj⟩ := List.getElem?_of_mem h
      obtain ⟨t, _, h2, h3⟩ := hl j a hj
      exact (outerIds_labels hS hC hL h2 h3).1
    · obtain ⟨t, ht, hto, hti⟩ := hl i a hi
      obtain ⟨u, hu, huo, hui⟩ := hl j b hj
      obtain ⟨x1, he1, ho1⟩ := (outerIds_labels hS hC hL hto hti).2 x hx
      obtain ⟨x2, he2, ho2⟩ := (outerIds_labels hS hC hL huo hui).2 x hy
      have : x1 = x2 := idOf_inj (by rw [he1, he2])
      subst this
      exact hd ha i j t u (by omega) ht hu ⟨x1, ho1, ho2⟩

theorem set_labels {tree : Tree} (hS : Supported tree) (hC : CompilableNames tree) (hL : Legal tree) {mod : Module} {fuel : Nat} {cs : List Comp} {e : Bool} {name : Name}
    (ho : Occurs tree mod (.set cs e)) {ms : List Member} (h : createMembers tree fuel mod true name 0 cs = .ok ms) :
    distinctLabels (ms.flatMap fun m => m.labels.map TagId.id) = .ok () := by
  refine labels_nodup hS hC hL (fuel := fuel) (mod := mod) (ty := fun j => (cs[j]?).map Comp.type) (g := Member.labels) (fun j m hm => ?_)
    (fun ha i j t u hij hi hj hc => ?_)
  · obtain ⟨c, h1, h2⟩ := createMembers_get cs 0 ms h j m hm
    refine ⟨c.type, by simp [h1], .set ho (List.mem_of_getElem? h1), ?_⟩
    unfold componentLabels at h2
    rw [if_pos rfl, Nat.zero_add] at h2
    exact h2
  · obtain ⟨a, ha', rfl⟩ := Option.map_eq_some_iff.1 hi
    obtain ⟨b, hb', rfl⟩ := Option.map_eq_some_iff.1 hj
    exact setDistinct_of_legal hL ho ha i j a b hij ha' hb' hc

theorem choice_labels {tree : Tree} (hS : Supported tree) (hC : CompilableNames tree) (hL : Legal tree) {mod : Module} {fuel : Nat} {as : List Named} {s : Storage}
    (ho : Occurs tree mod (.choice as s)) {ms : List AltMember} (h : createAlternatives tree fuel mod 0 as = .ok ms) :
    distinctLabels (ms.flatMap fun m => m.labels.map TagId.id) = .ok () := by
  refine labels_nodup hS hC hL (fuel := fuel) (mod := mod) (ty := fun j => (as[j]?).map Named.type) (g := AltMember.labels) (fun j m hm => ?_)
    (fun ha i j t u hij hi hj hc => ?_)
  · obtain ⟨c, h1, h2⟩ := createAlternatives_get as 0 ms h j m hm
    refine ⟨c.type, by simp [h1], .choice ho (List.mem_of_getElem? h1), ?_⟩
    rw [Nat.zero_add] at h2
    exact h2
  · obtain ⟨a, ha', rfl⟩ := Option.map_eq_some_iff.1 hi
    obtain ⟨b, hb', rfl⟩ := Option.map_eq_some_iff.1 hj
    exact choiceDistinct_of_legal hL ho ha i j a b hij ha' hb' hc

end FastBer.Ast
