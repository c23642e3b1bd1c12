import Verif.Spec.Supported
import Verif.Spec.Legal
/-!
# Types of two trees that mean the same

`Sim`: corresponding types of two trees have the same shape, up to references that lead somewhere (`left`, `right`).  Everything the
specifications say about types is preserved.
-/
namespace FastBer.Ast
open Spec FastBer.Spec

/-- A relation between references of the first tree and references of the second. -/
abbrev RefRel := Module → Option Name → Name → Module → Option Name → Name → Prop

inductive Sim (T1 T2 : Tree) (R : RefRel) : Module → AType → Module → AType → Prop where
  | leaf (m1 m2 : Module) (k : Builtin) : Sim T1 T2 R m1 (.leaf k) m2 (.leaf k)
  | objField (m1 m2 : Module) (m : Option Name) (c : Name) (fs : List Name) : Sim T1 T2 R m1 (.objField m c fs) m2 (.objField m c fs)
  | defined {m1 m2 : Module} {m m' : Option Name} {ref ref' : Name} {ps ps' : List AType} :
      R m1 m ref m2 m' ref' → Sim T1 T2 R m1 (.defined m ref ps) m2 (.defined m' ref' ps')
  | left {m1 m2 w : Module} {m : Option Name} {ref : Name} {ps : List AType} {u t2 : AType} :
      target T1 m1 m ref = some (w, u) → Sim T1 T2 R w u m2 t2 → Sim T1 T2 R m1 (.defined m ref ps) m2 t2
  | right {m1 m2 w : Module} {m : Option Name} {ref : Name} {ps : List AType} {t1 u : AType} :
      target T2 m2 m ref = some (w, u) → Sim T1 T2 R m1 t1 w u → Sim T1 T2 R m1 t1 m2 (.defined m ref ps)
  | choice {m1 m2 : Module} {as as' : List Named} (s s' : Storage) : m1.tagging = m2.tagging → as.length = as'.length →
      (∀ (i : Nat) a a', as[i]? = some a → as'[i]? = some a' → a.name = a'.name ∧ hasTag a.type = hasTag a'.type) →
      (∀ (i : Nat) a a', as[i]? = some a → as'[i]? = some a' → Sim T1 T2 R m1 a.type m2 a'.type) →
      Sim T1 T2 R m1 (.choice as s) m2 (.choice as' s')
  | sequence {m1 m2 : Module} {cs cs' : List Comp} (e : Bool) : m1.tagging = m2.tagging → cs.length = cs'.length →
      (∀ (i : Nat) c c', cs[i]? = some c → cs'[i]? = some c' → c.name = c'.name ∧ hasTag c.type = hasTag c'.type ∧ c.optional = c'.optional ∧ c.default = c'.default) →
      (∀ (i : Nat) c c', cs[i]? = some c → cs'[i]? = some c' → Sim T1 T2 R m1 c.type m2 c'.type) →
      Sim T1 T2 R m1 (.sequence cs e) m2 (.sequence cs' e)
  | set {m1 m2 : Module} {cs cs' : List Comp} (e : Bool) : m1.tagging = m2.tagging → cs.length = cs'.length →
      (∀ (i : Nat) c c', cs[i]? = some c → cs'[i]? = some c' → c.name = c'.name ∧ hasTag c.type = hasTag c'.type ∧ c.optional = c'.optional ∧ c.default = c'.default) →
      (∀ (i : Nat) c c', cs[i]? = some c → cs'[i]? = some c' → Sim T1 T2 R m1 c.type m2 c'.type) →
      Sim T1 T2 R m1 (.set cs e) m2 (.set cs' e)
  | seqOf {m1 m2 : Module} {t t' : AType} (n n' : Option Name) (s s' : Storage) : Sim T1 T2 R m1 t m2 t' →
      Sim T1 T2 R m1 (.seqOf n t s) m2 (.seqOf n' t' s')
  | setOf {m1 m2 : Module} {t t' : AType} (n n' : Option Name) (s s' : Storage) : Sim T1 T2 R m1 t m2 t' →
      Sim T1 T2 R m1 (.setOf n t s) m2 (.setOf n' t' s')
  | prefixed {m1 m2 : Module} {t t' : AType} (c : Cls) (n : Nat) (k : TagMode) : m1.tagging = m2.tagging → Sim T1 T2 R m1 t m2 t' →
      Sim T1 T2 R m1 (.prefixed c n k t) m2 (.prefixed c n k t')

/-- The other way round. -/
def RefRel.flip (R : RefRel) : RefRel := fun m1 m ref m2 m' ref' => R m2 m' ref' m1 m ref

theorem Sim.symm {T1 T2 : Tree} {R : RefRel} {m1 m2 : Module} {t1 t2 : AType} (h : Sim T1 T2 R m1 t1 m2 t2) : Sim T2 T1 R.flip m2 t2 m1 t1 := by
  induction h with
  | leaf => exact .leaf ..
  | objField => exact .objField ..
  | defined h => exact .defined h
  | left h _ ih => exact .right h ih
  | right h _ ih => exact .left h ih
  | choice s s' h1 h2 h3 _ ih => exact .choice _ _ h1.symm h2.symm (fun i a a' h h' => by obtain ⟨x, y⟩ := h3 i a' a h' h; exact ⟨x.symm, y.symm⟩) (fun i a a' h h' => ih i a' a h' h)
  | sequence e h1 h2 h3 _ ih => exact .sequence _ h1.symm h2.symm (fun i a a' h h' => by obtain ⟨x, y, z, w⟩ := h3 i a' a h' h; exact ⟨x.symm, y.symm, z.symm, w.symm⟩) (fun i a a' h h' => ih i a' a h' h)
  | set e h1 h2 h3 _ ih => exact .set _ h1.symm h2.symm (fun i a a' h h' => by obtain ⟨x, y, z, w⟩ := h3 i a' a h' h; exact ⟨x.symm, y.symm, z.symm, w.symm⟩) (fun i a a' h h' => ih i a' a h' h)
  | seqOf n n' s s' _ ih => exact .seqOf _ _ _ _ ih
  | setOf n n' s s' _ ih => exact .setOf _ _ _ _ ih
  | prefixed c n k h _ ih => exact .prefixed c n k h.symm ih

/-- Related references lead to related types. -/
structure Corr (T1 T2 : Tree) (R : RefRel) : Prop where
  fwd : ∀ {m1 m ref m2 m' ref' w u}, R m1 m ref m2 m' ref' → target T1 m1 m ref = some (w, u) →
    ∃ w' u', target T2 m2 m' ref' = some (w', u') ∧ Sim T1 T2 R w u w' u'
  bwd : ∀ {m1 m ref m2 m' ref' w' u'}, R m1 m ref m2 m' ref' → target T2 m2 m' ref' = some (w', u') →
    ∃ w u, target T1 m1 m ref = some (w, u) ∧ Sim T1 T2 R w u w' u'

theorem Corr.symm {T1 T2 : Tree} {R : RefRel} (h : Corr T1 T2 R) : Corr T2 T1 R.flip where
  fwd := fun hr ht => by obtain ⟨w, u, h1, h2⟩ := h.bwd hr ht; exact ⟨w, u, h1, h2.symm⟩
  bwd := fun hr ht => by obtain ⟨w, u, h1, h2⟩ := h.fwd hr ht; exact ⟨w, u, h1, h2.symm⟩

/-- Following references. -/
inductive Follows (T : Tree) : Module → AType → Module → AType → Prop where
  | refl (m : Module) (t : AType) : Follows T m t m t
  | step {m w m' : Module} {q : Option Name} {ref : Name} {ps : List AType} {u t' : AType} :
      target T m q ref = some (w, u) → Follows T w u m' t' → Follows T m (.defined q ref ps) m' t'

theorem Follows.trans {T : Tree} {a b c : Module} {t u v : AType} (h : Follows T a t b u) (h' : Follows T b u c v) : Follows T a t c v := by
  induction h with
  | refl => exact h'
  | step h1 _ ih => exact .step h1 (ih h')

/-- The reference in the first tree is followed in the second. -/
theorem Sim.deref {T1 T2 : Tree} {R : RefRel} (hc : Corr T1 T2 R) {m1 m2 w : Module} {m : Option Name} {ref : Name} {ps : List AType} {u t2 : AType}
    (h : Sim T1 T2 R m1 (.defined m ref ps) m2 t2) (ht : target T1 m1 m ref = some (w, u)) :
    ∃ m2' t2', Follows T2 m2 t2 m2' t2' ∧ Sim T1 T2 R w u m2' t2' := by
  generalize hg : AType.defined m ref ps = t1 at h
  induction h with
  | leaf | objField | choice | sequence | set | seqOf | setOf | prefixed => cases hg
  | defined h =>
    cases hg
    obtain ⟨w', u', h1, h2⟩ := hc.fwd h ht
    exact ⟨w', u', .step h1 (.refl _ _), h2⟩
  | left h h' _ =>
    cases hg
    rw [ht] at h; cases h
    exact ⟨_, _, .refl _ _, h'⟩
  | right h _ ih =>
    obtain ⟨m2', t2', h1, h2⟩ := ih ht hg
    exact ⟨m2', t2', .step h h1, h2⟩

/-- References of the second tree are followed until there is something else. -/
theorem Sim.head {T1 T2 : Tree} {R : RefRel} {m1 m2 : Module} {t1 t2 : AType} (h : Sim T1 T2 R m1 t1 m2 t2) (hn : ∀ m ref ps, t1 ≠ .defined m ref ps) :
    ∃ m2' t2', Follows T2 m2 t2 m2' t2' ∧ Sim T1 T2 R m1 t1 m2' t2' ∧ ∀ m ref ps, t2' ≠ .defined m ref ps := by
  induction h with
  | defined | left => exact absurd rfl (hn _ _ _)
  | right h _ ih =>
    obtain ⟨m2', t2', h1, h2, h3⟩ := ih hn
    exact ⟨m2', t2', .step h h1, h2, h3⟩
  | leaf m1 m2 k => exact ⟨_, _, .refl _ _, .leaf .., by intros; nofun⟩
  | objField => exact ⟨_, _, .refl _ _, .objField .., by intros; nofun⟩
  | choice s s' h1 h2 h3 h4 => exact ⟨_, _, .refl _ _, .choice s s' h1 h2 h3 h4, by intros; nofun⟩
  | sequence e h1 h2 h3 h4 => exact ⟨_, _, .refl _ _, .sequence e h1 h2 h3 h4, by intros; nofun⟩
  | set e h1 h2 h3 h4 => exact ⟨_, _, .refl _ _, .set e h1 h2 h3 h4, by intros; nofun⟩
  | seqOf n n' s s' h => exact ⟨_, _, .refl _ _, .seqOf _ _ _ _ h, by intros; nofun⟩
  | setOf n n' s s' h => exact ⟨_, _, .refl _ _, .setOf _ _ _ _ h, by intros; nofun⟩
  | prefixed c n k h1 h2 => exact ⟨_, _, .refl _ _, .prefixed c n k h1 h2, by intros; nofun⟩

/-! ## What is preserved -/

theorem Follows.untagged {T : Tree} {m m' : Module} {t t' : AType} (h : Follows T m t m' t') (hu : Untagged T m' t') : Untagged T m t := by
  induction h with
  | refl => exact hu
  | step h _ ih => exact .reference h (ih hu)

theorem Sim.untagged {T1 T2 : Tree} {R : RefRel} (hc : Corr T1 T2 R) {m1 m2 : Module} {t1 t2 : AType} (h : Sim T1 T2 R m1 t1 m2 t2)
    (hu : Untagged T1 m1 t1) : Untagged T2 m2 t2 := by
  induction hu generalizing m2 t2 with
  | choice =>
    obtain ⟨m2', t2', hf, hs, hn⟩ := h.head (by intros; nofun)
    refine hf.untagged ?_
    cases hs with
    | right => exact absurd rfl (hn _ _ _)
    | choice => exact .choice ..
  | any =>
    obtain ⟨m2', t2', hf, hs, hn⟩ := h.head (by intros; nofun)
    refine hf.untagged ?_
    cases hs with
    | right => exact absurd rfl (hn _ _ _)
    | leaf => exact .any _
  | reference ht _ ih =>
    obtain ⟨m2', t2', hf, hs⟩ := h.deref hc ht
    exact hf.untagged (ih hs)

theorem Sim.untagged_iff {T1 T2 : Tree} {R : RefRel} (hc : Corr T1 T2 R) {m1 m2 : Module} {t1 t2 : AType} (h : Sim T1 T2 R m1 t1 m2 t2) :
    Untagged T1 m1 t1 ↔ Untagged T2 m2 t2 := ⟨h.untagged hc, h.symm.untagged hc.symm⟩

theorem Sim.explicit_iff {T1 T2 : Tree} {R : RefRel} (hc : Corr T1 T2 R) {m1 m2 : Module} {t1 t2 : AType} (h : Sim T1 T2 R m1 t1 m2 t2)
    (ht : m1.tagging = m2.tagging) (k : TagMode) : ExplicitTag T1 m1 t1 k ↔ ExplicitTag T2 m2 t2 k := by
  constructor
  · intro hx
    cases hx with
    | keyword => exact .keyword
    | environment h' => exact .environment (ht ▸ h')
    | untagged h' => exact .untagged (h.untagged hc h')
  · intro hx
    cases hx with
    | keyword => exact .keyword
    | environment h' => exact .environment (ht ▸ h')
    | untagged h' => exact .untagged (h.symm.untagged hc.symm h')

theorem Follows.ownTags {T : Tree} {m m' : Module} {t t' : AType} (h : Follows T m t m' t') {ts : List Tag} (hu : OwnTags T m' t' ts) : OwnTags T m t ts := by
  induction h with
  | refl => exact hu
  | step h _ ih => exact .reference h (ih hu)

theorem Sim.ownTags {T1 T2 : Tree} {R : RefRel} (hc : Corr T1 T2 R) {m1 m2 : Module} {t1 t2 : AType} (h : Sim T1 T2 R m1 t1 m2 t2)
    {ts : List Tag} (hu : OwnTags T1 m1 t1 ts) : OwnTags T2 m2 t2 ts := by
  induction hu generalizing m2 t2 with
  | reference ht _ ih =>
    obtain ⟨m2', t2', hf, hs⟩ := h.deref hc ht
    exact hf.ownTags (ih hs)
  | leaf hk =>
    obtain ⟨m2', t2', hf, hs, hn⟩ := h.head (by intros; nofun)
    refine hf.ownTags ?_
    cases hs with
    | right => exact absurd rfl (hn _ _ _)
    | leaf => exact .leaf hk
  | sequence =>
    obtain ⟨m2', t2', hf, hs, hn⟩ := h.head (by intros; nofun)
    refine hf.ownTags ?_
    cases hs with
    | right => exact absurd rfl (hn _ _ _)
    | sequence => exact .sequence ..
  | set =>
    obtain ⟨m2', t2', hf, hs, hn⟩ := h.head (by intros; nofun)
    refine hf.ownTags ?_
    cases hs with
    | right => exact absurd rfl (hn _ _ _)
    | set => exact .set ..
  | seqOf =>
    obtain ⟨m2', t2', hf, hs, hn⟩ := h.head (by intros; nofun)
    refine hf.ownTags ?_
    cases hs with
    | right => exact absurd rfl (hn _ _ _)
    | seqOf => exact .seqOf ..
  | setOf =>
    obtain ⟨m2', t2', hf, hs, hn⟩ := h.head (by intros; nofun)
    refine hf.ownTags ?_
    cases hs with
    | right => exact absurd rfl (hn _ _ _)
    | setOf => exact .setOf ..
  | choice =>
    obtain ⟨m2', t2', hf, hs, hn⟩ := h.head (by intros; nofun)
    refine hf.ownTags ?_
    cases hs with
    | right => exact absurd rfl (hn _ _ _)
    | choice => exact .choice ..
  | explicit_ hx _ ih =>
    obtain ⟨m2', t2', hf, hs, hn⟩ := h.head (by intros; nofun)
    refine hf.ownTags ?_
    cases hs with
    | right => exact absurd rfl (hn _ _ _)
    | prefixed c n k ht hs => exact .explicit_ ((hs.explicit_iff hc ht _).1 hx) (ih hs)
  | implicit hx _ ih =>
    obtain ⟨m2', t2', hf, hs, hn⟩ := h.head (by intros; nofun)
    refine hf.ownTags ?_
    cases hs with
    | right => exact absurd rfl (hn _ _ _)
    | prefixed c n k ht hs => exact .implicit (fun h => hx ((hs.explicit_iff hc ht _).2 h)) (ih hs)

theorem Sim.ownTags_iff {T1 T2 : Tree} {R : RefRel} (hc : Corr T1 T2 R) {m1 m2 : Module} {t1 t2 : AType} (h : Sim T1 T2 R m1 t1 m2 t2)
    (ts : List Tag) : OwnTags T1 m1 t1 ts ↔ OwnTags T2 m2 t2 ts := ⟨h.ownTags hc, h.symm.ownTags hc.symm⟩

theorem Follows.core {T : Tree} {m m' wm : Module} {t t' u : AType} (h : Follows T m t m' t') (hu : Core T m' t' wm u) : Core T m t wm u := by
  induction h with
  | refl => exact hu
  | step h _ ih => exact .reference h (ih hu)

theorem core_isCore {T : Tree} {m wm : Module} {t u : AType} (h : Core T m t wm u) : isCore u = true := by
  induction h with
  | here h => exact h
  | prefixed _ ih => exact ih
  | reference _ _ ih => exact ih

theorem Sim.core {T1 T2 : Tree} {R : RefRel} (hc : Corr T1 T2 R) {m1 m2 wm : Module} {t1 t2 u : AType} (h : Sim T1 T2 R m1 t1 m2 t2)
    (hu : Core T1 m1 t1 wm u) : ∃ wm' u', Core T2 m2 t2 wm' u' ∧ Sim T1 T2 R wm u wm' u' := by
  induction hu generalizing m2 t2 with
  | reference ht _ ih =>
    obtain ⟨m2', t2', hf, hs⟩ := h.deref hc ht
    obtain ⟨wm', u', h1, h2⟩ := ih hs
    exact ⟨wm', u', hf.core h1, h2⟩
  | prefixed _ ih =>
    obtain ⟨m2', t2', hf, hs, hn⟩ := h.head (by intros; nofun)
    cases hs with
    | right => exact absurd rfl (hn _ _ _)
    | prefixed c n k ht hs =>
      obtain ⟨wm', u', h1, h2⟩ := ih hs
      exact ⟨wm', u', hf.core (.prefixed h1), h2⟩
  | @here mod t hi =>
    obtain ⟨m2', t2', hf, hs, hn⟩ := h.head (by rintro m ref ps rfl; cases hi)
    refine ⟨m2', t2', hf.core (.here ?_), hs⟩
    cases hs with
    | right => exact absurd rfl (hn _ _ _)
    | defined => cases hi
    | left => cases hi
    | prefixed => cases hi
    | _ => rfl

/-- The types are SEQUENCEs, SETs, CHOICEs, lists or simple types together. -/
theorem Sim.isStruct {T1 T2 : Tree} {R : RefRel} {m1 m2 : Module} {t1 t2 : AType} (h : Sim T1 T2 R m1 t1 m2 t2) (h1 : isCore t1 = true) (h2 : isCore t2 = true) :
    isStruct t1 = isStruct t2 ∧ isList t1 = isList t2 := by
  cases h with
  | right => cases h2
  | left => cases h1
  | defined => cases h1
  | prefixed => cases h1
  | _ => exact ⟨rfl, rfl⟩

/-! ## Automatic tags -/

theorem Sim.autoTags {T1 T2 : Tree} {R : RefRel} {m1 m2 : Module} {ts ts' : List AType} (ht : m1.tagging = m2.tagging) (hl : ts.length = ts'.length)
    (h1 : ∀ (i : Nat) t t', ts[i]? = some t → ts'[i]? = some t' → hasTag t = hasTag t')
    (h2 : ∀ (i : Nat) t t', ts[i]? = some t → ts'[i]? = some t' → Sim T1 T2 R m1 t m2 t') :
    (autoTags m1 ts).length = (autoTags m2 ts').length ∧
    ∀ (i : Nat) t t', (autoTags m1 ts)[i]? = some t → (autoTags m2 ts')[i]? = some t' → hasTag t = hasTag t' ∧ Sim T1 T2 R m1 t m2 t' := by
  have hall : ts.all (fun t => !hasTag t) = ts'.all (fun t => !hasTag t) := by
    clear h2 ht
    induction ts generalizing ts' with
    | nil => cases ts' with
      | nil => rfl
      | cons => cases hl
    | cons t ts ih => cases ts' with
      | nil => cases hl
      | cons t' ts' =>
        rw [List.all_cons, List.all_cons, h1 0 t t' rfl rfl, ih (by simpa using hl) (fun i => h1 (i + 1))]
  unfold Spec.autoTags
  rw [ht, hall]
  split
  · refine ⟨by simpa using hl, fun i t t' h h' => ?_⟩
    rw [List.getElem?_mapIdx, Option.map_eq_some_iff] at h h'
    obtain ⟨u, hu, rfl⟩ := h
    obtain ⟨u', hu', rfl⟩ := h'
    exact ⟨rfl, .prefixed _ _ _ ht (h2 i u u' hu hu')⟩
  · exact ⟨hl, fun i t t' h h' => ⟨h1 i t t' h h', h2 i t t' h h'⟩⟩

theorem autoTags_length (mod : Module) (ts : List AType) : (autoTags mod ts).length = ts.length := by
  unfold Spec.autoTags; split <;> simp

theorem slots_length' (mod : Module) (cs : List Comp) : (slots mod cs).length = cs.length := by
  unfold Spec.slots; rw [List.length_zipWith, autoTags_length]; simp

theorem slots_get {mod : Module} {cs : List Comp} {i : Nat} {s : Slot} (h : (slots mod cs)[i]? = some s) :
    ∃ c, cs[i]? = some c ∧ (autoTags mod (cs.map Comp.type))[i]? = some s.type ∧ s.mayBeAbsent = (c.optional || c.default.isSome) := by
  unfold Spec.slots at h
  rw [List.getElem?_zipWith] at h
  split at h
  · rename_i c t hc ht
    cases h
    exact ⟨c, hc, ht, rfl⟩
  · cases h

theorem Sim.slots {T1 T2 : Tree} {R : RefRel} {m1 m2 : Module} {cs cs' : List Comp} (ht : m1.tagging = m2.tagging) (hl : cs.length = cs'.length)
    (h1 : ∀ (i : Nat) c c', cs[i]? = some c → cs'[i]? = some c' → c.name = c'.name ∧ hasTag c.type = hasTag c'.type ∧ c.optional = c'.optional ∧ c.default = c'.default)
    (h2 : ∀ (i : Nat) c c', cs[i]? = some c → cs'[i]? = some c' → Sim T1 T2 R m1 c.type m2 c'.type) :
    (slots m1 cs).length = (slots m2 cs').length ∧
    ∀ (i : Nat) s s', (slots m1 cs)[i]? = some s → (slots m2 cs')[i]? = some s' → s.mayBeAbsent = s'.mayBeAbsent ∧ Sim T1 T2 R m1 s.type m2 s'.type := by
  obtain ⟨ha, hb⟩ := Sim.autoTags (T1 := T1) (T2 := T2) (R := R) (ts := cs.map Comp.type) (ts' := cs'.map Comp.type) ht (by simpa using hl)
    (by
      intro i t t' h h'
      rw [List.getElem?_map, Option.map_eq_some_iff] at h h'
      obtain ⟨c, hc, rfl⟩ := h
      obtain ⟨c', hc', rfl⟩ := h'
      exact (h1 i c c' hc hc').2.1)
    (by
      intro i t t' h h'
      rw [List.getElem?_map, Option.map_eq_some_iff] at h h'
      obtain ⟨c, hc, rfl⟩ := h
      obtain ⟨c', hc', rfl⟩ := h'
      exact h2 i c c' hc hc')
  refine ⟨by rw [slots_length', slots_length', hl], ?_⟩
  intro i s s' h h'
  obtain ⟨c, hc, hs, hm⟩ := slots_get h
  obtain ⟨c', hc', hs', hm'⟩ := slots_get h'
  obtain ⟨-, -, h3, h4⟩ := h1 i c c' hc hc'
  exact ⟨by rw [hm, hm', h3, h4], (hb i _ _ hs hs').2⟩

theorem Sim.choices {T1 T2 : Tree} {R : RefRel} {m1 m2 : Module} {as as' : List Named} (ht : m1.tagging = m2.tagging) (hl : as.length = as'.length)
    (h1 : ∀ (i : Nat) a a', as[i]? = some a → as'[i]? = some a' → a.name = a'.name ∧ hasTag a.type = hasTag a'.type)
    (h2 : ∀ (i : Nat) a a', as[i]? = some a → as'[i]? = some a' → Sim T1 T2 R m1 a.type m2 a'.type) :
    (choices m1 as).length = (choices m2 as').length ∧
    ∀ (i : Nat) t t', (choices m1 as)[i]? = some t → (choices m2 as')[i]? = some t' → hasTag t = hasTag t' ∧ Sim T1 T2 R m1 t m2 t' := by
  refine Sim.autoTags ht (by simpa using hl) ?_ ?_
  · intro i t t' h h'
    rw [List.getElem?_map, Option.map_eq_some_iff] at h h'
    obtain ⟨c, hc, rfl⟩ := h
    obtain ⟨c', hc', rfl⟩ := h'
    exact (h1 i c c' hc hc').2
  · intro i t t' h h'
    rw [List.getElem?_map, Option.map_eq_some_iff] at h h'
    obtain ⟨c, hc, rfl⟩ := h
    obtain ⟨c', hc', rfl⟩ := h'
    exact h2 i c c' hc hc'

/-- The element of the other list at a position. -/
theorem get_other {α β : Type} {l : List α} {l' : List β} (hl : l.length = l'.length) {i : Nat} {a : α} (h : l[i]? = some a) : ∃ b, l'[i]? = some b := by
  obtain ⟨hi, -⟩ := List.getElem?_eq_some_iff.1 h
  exact ⟨_, List.getElem?_eq_getElem (hl ▸ hi)⟩

/-! ## Outermost tags -/

theorem Follows.outermost {T : Tree} {m m' : Module} {t t' : AType} (h : Follows T m t m' t') {x : Tag} (hu : Outermost T m' t' x) : Outermost T m t x := by
  induction h with
  | refl => exact hu
  | step h _ ih => exact .reference h (ih hu)

theorem noneTagged_iff {as : List Named} : NoneTagged as ↔ ∀ a ∈ as, hasTag a.type = false := by
  constructor
  · intro h a ha
    cases ht : a.type with
    | prefixed c n k t => exact absurd ht (h a ha c n k t)
    | _ => rfl
  · intro h a ha c n k t ht
    have := h a ha
    rw [ht] at this
    cases this

theorem automatic_iff {m1 m2 : Module} {as as' : List Named} (ht : m1.tagging = m2.tagging) (hl : as.length = as'.length)
    (h1 : ∀ (i : Nat) a a', as[i]? = some a → as'[i]? = some a' → a.name = a'.name ∧ hasTag a.type = hasTag a'.type) :
    AutomaticallyTagged m1 as ↔ AutomaticallyTagged m2 as' := by
  unfold AutomaticallyTagged
  rw [ht, noneTagged_iff, noneTagged_iff]
  refine and_congr_right fun _ => ⟨fun h a' ha' => ?_, fun h a ha => ?_⟩
  · obtain ⟨i, hi⟩ := List.getElem?_of_mem ha'
    obtain ⟨a, ha⟩ := get_other hl.symm hi
    rw [← (h1 i a a' ha hi).2]
    exact h a (List.mem_of_getElem? ha)
  · obtain ⟨i, hi⟩ := List.getElem?_of_mem ha
    obtain ⟨a', ha'⟩ := get_other hl hi
    rw [(h1 i a a' hi ha').2]
    exact h a' (List.mem_of_getElem? ha')

theorem Sim.outermost {T1 T2 : Tree} {R : RefRel} (hc : Corr T1 T2 R) {m1 m2 : Module} {t1 t2 : AType} (h : Sim T1 T2 R m1 t1 m2 t2)
    {x : Tag} (hu : Outermost T1 m1 t1 x) : Outermost T2 m2 t2 x := by
  induction hu generalizing m2 t2 with
  | reference ht _ ih =>
    obtain ⟨m2', t2', hf, hs⟩ := h.deref hc ht
    exact hf.outermost (ih hs)
  | leaf hk =>
    obtain ⟨m2', t2', hf, hs, hn⟩ := h.head (by intros; nofun)
    refine hf.outermost ?_
    cases hs with
    | right => exact absurd rfl (hn _ _ _)
    | leaf => exact .leaf hk
  | sequence =>
    obtain ⟨m2', t2', hf, hs, hn⟩ := h.head (by intros; nofun)
    refine hf.outermost ?_
    cases hs with
    | right => exact absurd rfl (hn _ _ _)
    | sequence => exact .sequence ..
  | set =>
    obtain ⟨m2', t2', hf, hs, hn⟩ := h.head (by intros; nofun)
    refine hf.outermost ?_
    cases hs with
    | right => exact absurd rfl (hn _ _ _)
    | set => exact .set ..
  | seqOf =>
    obtain ⟨m2', t2', hf, hs, hn⟩ := h.head (by intros; nofun)
    refine hf.outermost ?_
    cases hs with
    | right => exact absurd rfl (hn _ _ _)
    | seqOf => exact .seqOf ..
  | setOf =>
    obtain ⟨m2', t2', hf, hs, hn⟩ := h.head (by intros; nofun)
    refine hf.outermost ?_
    cases hs with
    | right => exact absurd rfl (hn _ _ _)
    | setOf => exact .setOf ..
  | prefixed =>
    obtain ⟨m2', t2', hf, hs, hn⟩ := h.head (by intros; nofun)
    refine hf.outermost ?_
    cases hs with
    | right => exact absurd rfl (hn _ _ _)
    | prefixed => exact .prefixed ..
  | choice hna ha _ ih =>
    obtain ⟨m2', t2', hf, hs, hn⟩ := h.head (by intros; nofun)
    refine hf.outermost ?_
    cases hs with
    | right => exact absurd rfl (hn _ _ _)
    | choice s s' ht hl h3 h4 =>
      obtain ⟨i, hi⟩ := List.getElem?_of_mem ha
      obtain ⟨a', ha'⟩ := get_other hl hi
      exact .choice (fun h => hna ((automatic_iff ht hl h3).2 h)) (List.mem_of_getElem? ha') (ih (h4 i _ a' hi ha'))
  | automaticChoice hna hi =>
    obtain ⟨m2', t2', hf, hs, hn⟩ := h.head (by intros; nofun)
    refine hf.outermost ?_
    cases hs with
    | right => exact absurd rfl (hn _ _ _)
    | choice s s' ht hl h3 h4 => exact .automaticChoice ((automatic_iff ht hl h3).1 hna) (hl ▸ hi)

theorem Sim.outermost_iff {T1 T2 : Tree} {R : RefRel} (hc : Corr T1 T2 R) {m1 m2 : Module} {t1 t2 : AType} (h : Sim T1 T2 R m1 t1 m2 t2)
    (x : Tag) : Outermost T1 m1 t1 x ↔ Outermost T2 m2 t2 x := ⟨h.outermost hc, h.symm.outermost hc.symm⟩

/-! ## Encodings and values -/

/-- Corresponding components. -/
def SimSlots (T1 T2 : Tree) (R : RefRel) (m1 : Module) (ss : List Slot) (m2 : Module) (ss' : List Slot) : Prop :=
  ss.length = ss'.length ∧ ∀ (i : Nat) s s', ss[i]? = some s → ss'[i]? = some s' → s.mayBeAbsent = s'.mayBeAbsent ∧ Sim T1 T2 R m1 s.type m2 s'.type

theorem SimSlots.cons {T1 T2 : Tree} {R : RefRel} {m1 m2 : Module} {b : Bool} {t : AType} {ss ss' : List Slot} (h : SimSlots T1 T2 R m1 (⟨b, t⟩ :: ss) m2 ss') :
    ∃ t' rest, ss' = ⟨b, t'⟩ :: rest ∧ Sim T1 T2 R m1 t m2 t' ∧ SimSlots T1 T2 R m1 ss m2 rest := by
  obtain ⟨hl, h⟩ := h
  cases ss' with
  | nil => cases hl
  | cons s' rest =>
    obtain ⟨h1, h2⟩ := h 0 _ _ rfl rfl
    obtain ⟨b', t'⟩ := s'
    cases h1
    exact ⟨t', rest, rfl, h2, by simpa using hl, fun i => h (i + 1)⟩

theorem SimSlots.nil {T1 T2 : Tree} {R : RefRel} {m1 m2 : Module} {ss' : List Slot} (h : SimSlots T1 T2 R m1 [] m2 ss') : ss' = [] :=
  List.length_eq_zero_iff.1 h.1.symm

mutual
theorem Sim.encodes {T1 T2 : Tree} {R : RefRel} (hc : Corr T1 T2 R) {r : Rules} {m1 m2 : Module} {t1 t2 : AType} {x : Val} {e : Bytes}
    (h : Sim T1 T2 R m1 t1 m2 t2) : Encodes r T1 m1 t1 x e → Encodes r T2 m2 t2 x e
  | .intro ho hcore hcon hw => by
    obtain ⟨wm', u', h1, h2⟩ := h.core hc hcore
    exact .intro (h.ownTags hc ho) h1 (Sim.contents hc h2 (core_isCore hcore) (core_isCore h1) hcon) hw
theorem Sim.contents {T1 T2 : Tree} {R : RefRel} (hc : Corr T1 T2 R) {r : Rules} {m1 m2 : Module} {t1 t2 : AType} {x : Val} {k : Construction} {e : Bytes}
    (h : Sim T1 T2 R m1 t1 m2 t2) (h1 : isCore t1 = true) (h2 : isCore t2 = true) : Contents r T1 m1 t1 x k e → Contents r T2 m2 t2 x k e
  | .leaf hk => by
    cases h with
    | right => cases h2
    | leaf => exact .leaf hk
  | .seqOf he => by
    cases h with
    | right => cases h2
    | seqOf _ _ _ _ hs => exact .seqOf (Sim.encodesEach hc hs he)
  | .setOf he => by
    cases h with
    | right => cases h2
    | setOf _ _ _ _ hs => exact .setOf (Sim.encodesEach hc hs he)
  | .sequence he => by
    cases h with
    | right => cases h2
    | sequence _ ht hl h3 h4 => exact .sequence (Sim.encodesSlots hc (Sim.slots ht hl h3 h4) he)
  | .set he hp => by
    cases h with
    | right => cases h2
    | set _ ht hl h3 h4 => exact .set (Sim.encodesSlots hc (Sim.slots ht hl h3 h4) he) hp
  | .choice hi he => by
    cases h with
    | right => cases h2
    | choice _ _ ht hl h3 h4 =>
      obtain ⟨hl', hs⟩ := Sim.choices ht hl h3 h4
      obtain ⟨t', ht'⟩ := get_other hl' hi
      exact .choice ht' (Sim.encodes hc (hs _ _ _ hi ht').2 he)
theorem Sim.encodesEach {T1 T2 : Tree} {R : RefRel} (hc : Corr T1 T2 R) {r : Rules} {m1 m2 : Module} {t1 t2 : AType} {xs : List Val} {es : List Bytes}
    (h : Sim T1 T2 R m1 t1 m2 t2) : EncodesEach r T1 m1 t1 xs es → EncodesEach r T2 m2 t2 xs es
  | .nil _ _ => .nil _ _
  | .cons he hr => .cons (Sim.encodes hc h he) (Sim.encodesEach hc h hr)
theorem Sim.encodesSlots {T1 T2 : Tree} {R : RefRel} (hc : Corr T1 T2 R) {r : Rules} {m1 m2 : Module} {ss ss' : List Slot} {xs : List Val} {es : List Bytes}
    (h : SimSlots T1 T2 R m1 ss m2 ss') : EncodesSlots r T1 m1 ss xs es → EncodesSlots r T2 m2 ss' xs es
  | .nil _ => by
    rw [h.nil]; exact .nil _
  | .mandatory he hr => by
    obtain ⟨t', rest, h1, h2, h3⟩ := h.cons
    rw [h1]
    exact .mandatory (Sim.encodes hc h2 he) (Sim.encodesSlots hc h3 hr)
  | .present he hr => by
    obtain ⟨t', rest, h1, h2, h3⟩ := h.cons
    rw [h1]
    exact .present (Sim.encodes hc h2 he) (Sim.encodesSlots hc h3 hr)
  | .absent hr => by
    obtain ⟨t', rest, h1, h2, h3⟩ := h.cons
    rw [h1]
    exact .absent (Sim.encodesSlots hc h3 hr)
end

theorem Sim.encodes_iff {T1 T2 : Tree} {R : RefRel} (hc : Corr T1 T2 R) {m1 m2 : Module} {t1 t2 : AType} (h : Sim T1 T2 R m1 t1 m2 t2)
    (r : Rules) (x : Val) (e : Bytes) : Encodes r T1 m1 t1 x e ↔ Encodes r T2 m2 t2 x e := ⟨h.encodes hc, h.symm.encodes hc.symm⟩

mutual
theorem Sim.value {T1 T2 : Tree} {R : RefRel} (hc : Corr T1 T2 R) {P : Builtin → Bytes → Prop} {m1 m2 : Module} {t1 t2 : AType} {x : Val}
    (h : Sim T1 T2 R m1 t1 m2 t2) : Spec.Value P T1 m1 t1 x → Spec.Value P T2 m2 t2 x
  | .intro hcore hv => by
    obtain ⟨wm', u', h1, h2⟩ := h.core hc hcore
    exact .intro h1 (Sim.valueOf hc h2 (core_isCore hcore) (core_isCore h1) hv)
theorem Sim.valueOf {T1 T2 : Tree} {R : RefRel} (hc : Corr T1 T2 R) {P : Builtin → Bytes → Prop} {m1 m2 : Module} {t1 t2 : AType} {x : Val}
    (h : Sim T1 T2 R m1 t1 m2 t2) (h1 : isCore t1 = true) (h2 : isCore t2 = true) : ValueOf P T1 m1 t1 x → ValueOf P T2 m2 t2 x
  | .leaf hk => by
    cases h with
    | right => cases h2
    | leaf => exact .leaf hk
  | .seqOf he => by
    cases h with
    | right => cases h2
    | seqOf _ _ _ _ hs => exact .seqOf (fun x hx => Sim.value hc hs (he x hx))
  | .setOf he => by
    cases h with
    | right => cases h2
    | setOf _ _ _ _ hs => exact .setOf (fun x hx => Sim.value hc hs (he x hx))
  | .sequence he => by
    cases h with
    | right => cases h2
    | sequence _ ht hl h3 h4 => exact .sequence (Sim.valueSlots hc (Sim.slots ht hl h3 h4) he)
  | .set he => by
    cases h with
    | right => cases h2
    | set _ ht hl h3 h4 => exact .set (Sim.valueSlots hc (Sim.slots ht hl h3 h4) he)
  | .choice hi he => by
    cases h with
    | right => cases h2
    | choice _ _ ht hl h3 h4 =>
      obtain ⟨hl', hs⟩ := Sim.choices ht hl h3 h4
      obtain ⟨t', ht'⟩ := get_other hl' hi
      exact .choice ht' (Sim.value hc (hs _ _ _ hi ht').2 he)
theorem Sim.valueSlots {T1 T2 : Tree} {R : RefRel} (hc : Corr T1 T2 R) {P : Builtin → Bytes → Prop} {m1 m2 : Module} {ss ss' : List Slot} {xs : List Val}
    (h : SimSlots T1 T2 R m1 ss m2 ss') : ValueSlots P T1 m1 ss xs → ValueSlots P T2 m2 ss' xs
  | .nil _ => by
    rw [h.nil]; exact .nil _
  | .mandatory he hr => by
    obtain ⟨t', rest, h1, h2, h3⟩ := h.cons
    rw [h1]
    exact .mandatory (Sim.value hc h2 he) (Sim.valueSlots hc h3 hr)
  | .present he hr => by
    obtain ⟨t', rest, h1, h2, h3⟩ := h.cons
    rw [h1]
    exact .present (Sim.value hc h2 he) (Sim.valueSlots hc h3 hr)
  | .absent hr => by
    obtain ⟨t', rest, h1, h2, h3⟩ := h.cons
    rw [h1]
    exact .absent (Sim.valueSlots hc h3 hr)
end

theorem Sim.value_iff {T1 T2 : Tree} {R : RefRel} (hc : Corr T1 T2 R) {m1 m2 : Module} {t1 t2 : AType} (h : Sim T1 T2 R m1 t1 m2 t2)
    (P : Builtin → Bytes → Prop) (x : Val) : Spec.Value P T1 m1 t1 x ↔ Spec.Value P T2 m2 t2 x := ⟨h.value hc, h.symm.value hc.symm⟩

end FastBer.Ast
