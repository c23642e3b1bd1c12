import Verif.Proofs.EmitSound
/-!
# The declarations the compiler writes implement the ASN.1 types: the induction
-/
namespace FastBer.Ast
open Spec

/-! ## Components and alternatives by position -/

/-- The components from position `i` on. -/
def slotsFrom (mod : Module) : Nat → List Comp → List Slot
  | _, [] => []
  | i, c :: cs => ⟨c.optional || c.default.isSome, effective mod i c.type⟩ :: slotsFrom mod (i + 1) cs

/-- The alternatives from position `i` on. -/
def choicesFrom (mod : Module) : Nat → List Named → List AType
  | _, [] => []
  | i, a :: as => effective mod i a.type :: choicesFrom mod (i + 1) as

theorem slotsFrom_get (mod : Module) : ∀ (cs : List Comp) (i j : Nat),
    (slotsFrom mod i cs)[j]? = (cs[j]?).map fun c => ⟨c.optional || c.default.isSome, effective mod (i + j) c.type⟩
  | [], i, j => by simp [slotsFrom]
  | c :: cs, i, 0 => by simp [slotsFrom]
  | c :: cs, i, j + 1 => by
    simp only [slotsFrom, List.getElem?_cons_succ, slotsFrom_get mod cs]
    rw [show i + 1 + j = i + (j + 1) by omega]

theorem choicesFrom_get (mod : Module) : ∀ (as : List Named) (i j : Nat),
    (choicesFrom mod i as)[j]? = (as[j]?).map fun a => effective mod (i + j) a.type
  | [], i, j => by simp [choicesFrom]
  | c :: cs, i, 0 => by simp [choicesFrom]
  | c :: cs, i, j + 1 => by
    simp only [choicesFrom, List.getElem?_cons_succ, choicesFrom_get mod cs]
    rw [show i + 1 + j = i + (j + 1) by omega]

theorem slots_from {mod : Module} {cs : List Comp} (h : mod.tagging = .automatic → ∀ c ∈ cs, hasTag c.type = false) :
    slots mod cs = slotsFrom mod 0 cs := by
  apply List.ext_getElem?
  intro j
  rw [slotsFrom_get, slots, List.getElem?_zipWith]
  by_cases ha : mod.tagging = .automatic
  · rw [autoTags_automatic ha (h ha), List.getElem?_mapIdx]
    cases cs[j]? <;> simp [effective, ha]
  · rw [autoTags_other ha, List.getElem?_map]
    cases cs[j]? <;> simp [effective, ha]

theorem choices_from {mod : Module} {as : List Named} (h : mod.tagging = .automatic → ∀ a ∈ as, hasTag a.type = false) :
    choices mod as = choicesFrom mod 0 as := by
  apply List.ext_getElem?
  intro j
  rw [choicesFrom_get, choices]
  by_cases ha : mod.tagging = .automatic
  · rw [autoTags_automatic ha (h ha), List.getElem?_mapIdx]
    cases as[j]? <;> simp [effective, ha]
  · rw [autoTags_other ha, List.getElem?_map]
    cases as[j]? <;> simp [effective, ha]

/-- The type of this name is declared in the current scope, for component `i`. -/
def Declared (lib : Lib) (tree : Tree) (fuel : Nat) (mod : Module) (env : Env) (i : Nat) (name : Name) (t : AType) : Prop :=
  ∃ T, env.cur mod.name name = some (.type T) ∧ Made_emit lib tree fuel mod t (autoOverride mod i) T

/-- All components from position `i` on are declared. -/
def AllDeclared (lib : Lib) (tree : Tree) (fuel : Nat) (mod : Module) (env : Env) (parent : Name) : Nat → List Comp → Prop
  | _, [] => True
  | i, c :: cs => Declared lib tree fuel mod env i (makeTypeName c.name parent) c.type ∧ AllDeclared lib tree fuel mod env parent (i + 1) cs

/-- All alternatives from position `i` on are declared. -/
def AltsDeclared (lib : Lib) (tree : Tree) (fuel : Nat) (mod : Module) (env : Env) : Nat → List Named → Prop
  | _, [] => True
  | i, a :: as => Declared lib tree fuel mod env i (makeTypeName a.name) a.type ∧ AltsDeclared lib tree fuel mod env (i + 1) as

theorem memberKind_for {lib : Lib} {T : Ty} {o : Bool} {d : Option Value} {k : Kind} (h : memberKind lib T o d = .ok k) (t : AType) :
    kindFor lib T ⟨o || d.isSome, t⟩ k := by
  unfold memberKind at h
  split at h
  · rename_i ho
    cases h
    simp [kindFor, ho]
  · rename_i ho
    split at h
    · rename_i v
      obtain ⟨d, h', h⟩ := Res.bind_eq_ok.1 h
      cases h
      refine ⟨by simp, v, ?_⟩
      unfold need at h'
      split at h'
      · cases h'; assumption
      · cases h'
    · cases h
      simpa [kindFor] using ho

/-- A member looks for what its type can begin with. -/
theorem label_is {lib : Lib} {tree : Tree} (hS : Supported tree) {fuel i : Nat} {mod : Module} {t : AType} {T : Ty} {ls : List TagId}
    (hoc : Occurs tree mod t) (hT : T.Is noHoles lib tree mod (effective mod i t)) (hl : alternativeLabels tree fuel mod i t = .ok ls) :
    ls.map TagId.id = T.outer := by
  unfold alternativeLabels at hl
  unfold effective at hT
  split at hl
  · rename_i ha
    cases hl
    rw [if_pos ha] at hT
    rw [outer_prefixed hT.2, List.map_cons, TagId.id_eq]; rfl
  · rename_i ha
    rw [if_neg ha] at hT
    exact outerIds_is (noHoles_outer tree) hS _ _ _ _ _ hoc hT hl

theorem members_body {lib : Lib} {tree : Tree} (hS : Supported tree) {fuel : Nat} {mod : Module} {isSet : Bool} {parent : Name} {env : Env} :
    ∀ (cs : List Comp) (i : Nat) (ms : List Member) (fs : Fields),
    (∀ c ∈ cs, Occurs tree mod c.type ∧ Spec.Field tree mod c.name c.type) →
    (isSet = false → mod.tagging = .automatic → ∀ c ∈ cs, c.optional = false ∧ c.default = none) →
    createMembers tree fuel mod isSet parent i cs = .ok ms → runMembers lib mod.name env ms = .ok fs →
    AllDeclared lib tree fuel mod env parent i cs → fs.Body noHoles lib tree isSet mod (slotsFrom mod i cs)
  | [], i, ms, fs, _, _, hc, hr, _ => by
    rw [createMembers] at hc
    cases hc
    rw [runMembers] at hr
    cases hr
    rfl
  | c :: cs, i, ms, fs, hoc, hau, hc, hr, hd => by
    rw [createMembers] at hc
    obtain ⟨w, h1, hc⟩ := Res.bind_eq_ok.1 hc
    obtain ⟨ls, h2, hc⟩ := Res.bind_eq_ok.1 hc
    obtain ⟨rest, h3, hc⟩ := Res.bind_eq_ok.1 hc
    cases hc
    rw [runMembers] at hr
    obtain ⟨T, h4, hr⟩ := Res.bind_eq_ok.1 hr
    obtain ⟨T', h5, hr⟩ := Res.bind_eq_ok.1 hr
    obtain ⟨k, h6, hr⟩ := Res.bind_eq_ok.1 hr
    obtain ⟨fs', h7, hr⟩ := Res.bind_eq_ok.1 hr
    cases hr
    obtain ⟨⟨T0, hcur, hmade⟩, hd'⟩ := hd
    have hT : T0 = T := by
      have := needType_ok h4
      rw [find_cur hcur] at this
      cases this; rfl
    subst hT
    obtain ⟨ho, hf⟩ := hoc c List.mem_cons_self
    have his := member_is hS ho hf hmade h1 h5
    refine ⟨_, _, rfl, memberKind_for h6 _, ?_, .inl his,
      members_body hS cs (i + 1) rest fs' (fun c hc => hoc c (List.mem_cons_of_mem _ hc))
        (fun h h' c hc => hau h h' c (List.mem_cons_of_mem _ hc)) h3 h7 hd'⟩
    intro hall
    unfold componentLabels at h2
    cases isSet with
    | true => exact label_is hS ho his h2
    | false =>
      have hab : (c.optional || c.default.isSome) = true := by
        rcases hall with h | h
        · cases h
        · exact h
      simp only [Bool.false_eq_true, if_false] at h2
      rw [if_pos hab] at h2
      refine label_is hS (fuel := fuel) ho his ?_
      unfold alternativeLabels
      rw [if_neg fun ha => ?_]
      · exact h2
      · have := hau rfl ha c List.mem_cons_self
        rw [this.1, this.2] at hab
        cases hab

theorem alts_body {lib : Lib} {tree : Tree} (hS : Supported tree) {fuel : Nat} {mod : Module} {env : Env} :
    ∀ (as : List Named) (i : Nat) (ms : List AltMember) (fs : Alts),
    (∀ a ∈ as, Occurs tree mod a.type ∧ Spec.Field tree mod a.name a.type) →
    createAlternatives tree fuel mod i as = .ok ms → runAlts lib mod.name env ms = .ok fs →
    AltsDeclared lib tree fuel mod env i as → fs.Body noHoles lib tree mod (choicesFrom mod i as)
  | [], i, ms, fs, _, hc, hr, _ => by
    rw [createAlternatives] at hc
    cases hc
    rw [runAlts] at hr
    cases hr
    rfl
  | c :: cs, i, ms, fs, hoc, hc, hr, hd => by
    rw [createAlternatives] at hc
    obtain ⟨w, h1, hc⟩ := Res.bind_eq_ok.1 hc
    obtain ⟨ls, h2, hc⟩ := Res.bind_eq_ok.1 hc
    obtain ⟨rest, h3, hc⟩ := Res.bind_eq_ok.1 hc
    cases hc
    rw [runAlts] at hr
    obtain ⟨T, h4, hr⟩ := Res.bind_eq_ok.1 hr
    obtain ⟨T', h5, hr⟩ := Res.bind_eq_ok.1 hr
    obtain ⟨fs', h7, hr⟩ := Res.bind_eq_ok.1 hr
    cases hr
    obtain ⟨⟨T0, hcur, hmade⟩, hd'⟩ := hd
    have hT : T0 = T := by
      have := needType_ok h4
      rw [find_cur hcur] at this
      cases this; rfl
    subst hT
    obtain ⟨ho, hf⟩ := hoc c List.mem_cons_self
    have his := member_is hS ho hf hmade h1 h5
    exact ⟨_, _, rfl, label_is hS ho his h2, .inl his,
      alts_body hS cs (i + 1) rest fs' (fun c hc => hoc c (List.mem_cons_of_mem _ hc)) h3 h7 hd'⟩

/-- The identifiers of an untagged CHOICE are those of its alternatives. -/
theorem choice_cid {lib : Lib} {tree : Tree} (hS : Supported tree) {fuel : Nat} {mod : Module} {as : List Named} {s : Storage}
    (hoc : Occurs tree mod (.choice as s)) {fs : Alts} (hb : fs.Body noHoles lib tree mod (choicesFrom mod 0 as)) {id : CId}
    (h : Chosen tree fuel mod (.choice as s) none id) : ∃ ids : List TagId, id = .choice ids ∧ ids.map TagId.id = fs.outer := by
  unfold Chosen overrideOr at h
  obtain ⟨info, h1, h2⟩ := Res.bind_eq_ok.1 h
  cases h2
  obtain ⟨ts, ho, hfor⟩ := identifier_own (hS.tags _ _ hoc) h1
  cases ho
  generalize hg : ([] : List Spec.Tag) = l at hfor
  cases hfor with
  | single => cases hg
  | double => cases hg
  | choice hn hne _ =>
    refine ⟨info.choiceIds, by simp [TagInfo.cid, hn, List.length_pos_iff.2 hne], ?_⟩
    have hut : mod.tagging = .automatic → ∀ a ∈ as, hasTag a.type = false :=
      fun ha a h => hS.autoUntagged _ _ _ (.choice hoc h) ha
    rw [← choices_from hut] at hb
    cases fuel with
    | zero => rw [identifier] at h1; cases h1
    | succ f =>
      rw [identifier] at h1
      obtain ⟨ids, h3, h1⟩ := Res.bind_eq_ok.1 h1
      obtain ⟨_, _, h1⟩ := Res.bind_eq_ok.1 h1
      cases h1
      show ids.map TagId.id = fs.outer
      unfold choiceIds at h3
      split at h3
      · rename_i ha
        rw [autoChoiceIds_none _ _ (fun a hm c n k t he => by
          have := hut ha a hm
          rw [he] at this
          cases this)] at h3
        cases h3
        rw [choices, autoTags_automatic ha (hut ha)] at hb
        rw [alts_outer_auto (noHoles_outer tree) as 0 fs (by simpa using hb), List.range_eq_range', List.map_map]
        apply List.map_congr_left
        intro j _
        simp [TagId.id_eq, TagId.tag, TagId.ofTag]
      · rename_i ha
        obtain ⟨l, h4, h5⟩ := Res.bind_eq_ok.1 h3
        cases h5
        rw [choices, autoTags_other ha] at hb
        exact alts_outer_map (noHoles_outer tree) as fs l (fun a hm T ids hT hi => outerIds_is (noHoles_outer tree) hS f mod a.type T ids (.choice hoc hm) hT hi) hb h4

end FastBer.Ast
