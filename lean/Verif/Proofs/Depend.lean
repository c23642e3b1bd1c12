import Verif.Model.Depend
import Verif.Spec.Depend
import Verif.Proofs.Identifier
import Verif.Proofs.Modules
/-! Lemmas about `dependsOn`, `isCircular`, `resolveDeps`, `reorderAssignments`. -/
namespace FastBer.Ast
open Spec

/-! ## `dependsOn` -/

theorem mem_dependsOnAlts {d : Dep} (as : List Named) : d ∈ dependsOnAlts as ↔ ∃ a ∈ as, d ∈ dependsOn a.type := by
  induction as with
  | nil => simp [dependsOnAlts]
  | cons a as ih => cases a; simp [dependsOnAlts, ih, Named.type]

theorem mem_dependsOnSeq {d : Dep} (cs : List Comp) :
    d ∈ dependsOnSeq cs ↔ ∃ c ∈ cs, d ∈ dependsOn c.type ∨ d ∈ defaultDep c.type c.default := by
  induction cs with
  | nil => simp [dependsOnSeq]
  | cons c cs ih => cases c; simp [dependsOnSeq, ih, Comp.type, Comp.default, or_assoc]

theorem mem_dependsOnSet {d : Dep} (cs : List Comp) : d ∈ dependsOnSet cs ↔ ∃ c ∈ cs, d ∈ dependsOn c.type := by
  induction cs with
  | nil => simp [dependsOnSet]
  | cons c cs ih => cases c; simp [dependsOnSet, ih, Comp.type]

theorem isEnumerated_iff (t : AType) : t.isEnumerated = true ↔ t = .leaf .enumerated := by
  constructor
  · intro h
    unfold AType.isEnumerated at h
    split at h
    · rfl
    · cases h
  · rintro rfl; rfl

theorem mem_defaultDep {d : Dep} {t : AType} {v : Option Value} :
    d ∈ defaultDep t v ↔ v = some (.defined d.name) ∧ d.module = none ∧ t ≠ .leaf .enumerated := by
  unfold defaultDep
  split
  · rename_i v'
    by_cases ht : t.isEnumerated = true
    · rw [if_pos ht]
      simp [(isEnumerated_iff t).1 ht]
    · rw [if_neg ht]
      have : t ≠ .leaf .enumerated := fun h => ht ((isEnumerated_iff t).2 h)
      cases d
      simp [this, eq_comm]
  · rename_i h
    simp only [List.not_mem_nil, false_iff]
    rintro ⟨h', _⟩
    exact h _ h'

/-- The type and everything inside it has no SET with a default name. -/
def SetFree (t : AType) : Prop := ∀ u, u = t ∨ Inside t u → ¬ SetWithDefaultName u

theorem SetFree.child {t u : AType} (h : SetFree t) (hc : Child t u) : SetFree u := by
  intro w hw
  apply h
  rcases hw with rfl | hw
  · exact .inr (.single hc)
  · exact .inr (Relation.TransGen.trans (.single hc) hw)

theorem SetFree.of_inside {t u : AType} (h : ∀ u, Inside t u → ¬ SetWithDefaultName u) (hc : Child t u) : SetFree u := by
  intro w hw
  apply h
  rcases hw with rfl | hw
  · exact .single hc
  · exact Relation.TransGen.trans (.single hc) hw

theorem dep_of_uses {own : Name} {look : Storage → Prop} {item : AType → Prop} (hit : item (.leaf .enumerated))
    {t : AType} {n : Name} (h : Uses own look item t n) (hs : SetFree t) :
    ∃ d ∈ dependsOn t, d.isLocal own = true ∧ d.name = n := by
  induction h with
  | @reference m n ps hm => exact ⟨⟨n, m⟩, by simp [dependsOn], by rcases hm with rfl | rfl <;> simp [Dep.isLocal], rfl⟩
  | choice _ ha _ ih =>
    obtain ⟨d, h1, h2⟩ := ih (hs.child (.choice ha))
    exact ⟨d, by rw [dependsOn]; exact (mem_dependsOnAlts _).2 ⟨_, ha, h1⟩, h2⟩
  | sequence hc _ _ ih =>
    obtain ⟨d, h1, h2⟩ := ih (hs.child (.sequence hc))
    exact ⟨d, by rw [dependsOn]; exact (mem_dependsOnSeq _).2 ⟨_, hc, .inl h1⟩, h2⟩
  | set hc _ _ ih =>
    obtain ⟨d, h1, h2⟩ := ih (hs.child (.set hc))
    exact ⟨d, by rw [dependsOn]; exact (mem_dependsOnSet _).2 ⟨_, hc, h1⟩, h2⟩
  | @sequenceDefault cs e c v hc hd hi =>
    refine ⟨⟨v, none⟩, ?_, by simp [Dep.isLocal], rfl⟩
    rw [dependsOn]
    refine (mem_dependsOnSeq _).2 ⟨c, hc, .inr (mem_defaultDep.2 ⟨hd, rfl, ?_⟩)⟩
    intro h; rw [h] at hi; exact hi hit
  | @setDefault cs e c v hc hd hi => exact absurd ⟨cs, e, rfl, c, hc, v, hd⟩ (hs _ (.inl rfl))
  | seqOf _ _ ih => rw [dependsOn]; exact ih (hs.child .seqOf)
  | setOf _ _ ih => rw [dependsOn]; exact ih (hs.child .setOf)
  | prefixed _ ih => rw [dependsOn]; exact ih (hs.child .prefixed)

/-- Every dependency within the module is a mention. -/
theorem uses_of_dep (own : Name) : ∀ (t : AType) (d : Dep), d ∈ dependsOn t → d.isLocal own = true →
    Uses own (fun _ => True) (fun t => t = .leaf .enumerated) t d.name
  | .leaf _, d, h, _ => by simp [dependsOn] at h
  | .objField .., d, h, _ => by simp [dependsOn] at h
  | .choice as s, d, h, hl => by
    rw [dependsOn] at h
    obtain ⟨a, ha, hd⟩ := (mem_dependsOnAlts _).1 h
    have := List.sizeOf_lt_of_mem ha
    have : sizeOf a.type < sizeOf a := by cases a; simp [Named.type]; omega
    exact .choice trivial ha (uses_of_dep own a.type d hd hl)
  | .sequence cs e, d, h, hl => by
    rw [dependsOn] at h
    obtain ⟨c, hc, hd | hd⟩ := (mem_dependsOnSeq _).1 h
    · have := List.sizeOf_lt_of_mem hc
      have : sizeOf c.type < sizeOf c := by cases c; simp [Comp.type]; omega
      exact .sequence hc (fun _ => trivial) (uses_of_dep own c.type d hd hl)
    · have := mem_defaultDep.1 hd
      exact .sequenceDefault hc this.1 this.2.2
  | .set cs e, d, h, hl => by
    rw [dependsOn] at h
    obtain ⟨c, hc, hd⟩ := (mem_dependsOnSet _).1 h
    have := List.sizeOf_lt_of_mem hc
    have : sizeOf c.type < sizeOf c := by cases c; simp [Comp.type]; omega
    exact .set hc (fun _ => trivial) (uses_of_dep own c.type d hd hl)
  | .seqOf _ t _, d, h, hl => by rw [dependsOn] at h; exact .seqOf trivial (uses_of_dep own t d h hl)
  | .setOf _ t _, d, h, hl => by rw [dependsOn] at h; exact .setOf trivial (uses_of_dep own t d h hl)
  | .prefixed _ _ _ t, d, h, hl => by rw [dependsOn] at h; exact .prefixed (uses_of_dep own t d h hl)
  | .defined m ref ps, d, h, hl => by
    simp only [dependsOn, List.mem_singleton] at h
    subst h
    refine .reference ?_
    simpa [Dep.isLocal] using hl
termination_by t => sizeOf t

/-! ## `isCircular` -/

/-- The graph `get_dependencies_recursive` walks. -/
def Edge (own : Name) (deps : Name → List Dep) (u v : Name) : Prop := ∃ d ∈ deps u, d.isLocal own = true ∧ d.name = v

/-- All dependencies of `n` have been found. -/
def Closed (own : Name) (deps : Name → List Dep) (found : List Dep) (n : Name) : Prop :=
  ∀ d ∈ deps n, d.isLocal own = true → d ∈ found

theorem Closed.mono {own : Name} {deps : Name → List Dep} {f f' : List Dep} {n : Name} (h : Closed own deps f n)
    (hf : ∀ d ∈ f, d ∈ f') : Closed own deps f' n := fun d hd hl => hf d (h d hd hl)

theorem findLastAssignment_some {as : List Assignment} {n : Name} {a : Assignment} (h : findLastAssignment as n = some a) :
    a ∈ as ∧ a.name = n := by
  have h1 := List.mem_of_find?_eq_some h
  have h2 := List.find?_some h
  exact ⟨List.mem_reverse.mp h1, by simpa using h2⟩

theorem findLastAssignment_isSome {as : List Assignment} {n : Name} :
    (findLastAssignment as n).isSome = true ↔ n ∈ as.map (·.name) := by
  simp [findLastAssignment, List.find?_isSome]

theorem eq_of_name {as : List Assignment} (hn : (as.map (·.name)).Nodup) {a b : Assignment} (ha : a ∈ as) (hb : b ∈ as)
    (h : a.name = b.name) : a = b := by
  induction as with
  | nil => cases ha
  | cons x as ih =>
    rw [List.map_cons, List.nodup_cons] at hn
    rcases List.mem_cons.1 ha with e | ha' <;> rcases List.mem_cons.1 hb with e' | hb'
    · rw [e, e']
    · subst e; exact absurd (h ▸ List.mem_map_of_mem (f := (·.name)) hb') hn.1
    · subst e'; exact absurd (h ▸ List.mem_map_of_mem (f := (·.name)) ha') hn.1
    · exact ih hn.2 ha' hb'

theorem findLastAssignment_of_mem {as : List Assignment} (hn : (as.map (·.name)).Nodup) {a : Assignment} (h : a ∈ as) :
    findLastAssignment as a.name = some a := by
  have hs := findLastAssignment_isSome.2 (List.mem_map_of_mem (f := (·.name)) h)
  obtain ⟨b, hb⟩ := Option.isSome_iff_exists.1 hs
  obtain ⟨h1, h2⟩ := findLastAssignment_some hb
  rw [eq_of_name hn h1 h h2] at hb; exact hb

/-- One step of the loop of `depsRec`. -/
def depStep (as : List Assignment) (own : Name) (deps : Name → List Dep) (fuel : Nat) (found : List Dep) (d : Dep) :
    Res (List Dep) :=
  if d.isLocal own then
    if found.contains d then .ok found
    else depsRec as own deps fuel d.name (d :: found)
  else .ok found

theorem depsRec_succ (as : List Assignment) (own : Name) (deps : Name → List Dep) (fuel : Nat) (n : Name) (found : List Dep) :
    depsRec as own deps (fuel + 1) n found = match findLastAssignment as n with
      | none => .throw .undefinedType
      | some _ => (deps n).foldlM (depStep as own deps fuel) found := rfl

theorem depsRec_ok (as : List Assignment) (own : Name) (deps : Name → List Dep) : ∀ fuel n found found',
    depsRec as own deps fuel n found = .ok found' →
    (∀ d ∈ found, d ∈ found') ∧ Closed own deps found' n ∧ (∀ d ∈ found', d ∈ found ∨ Closed own deps found' d.name) ∧
    (∀ d ∈ found', d ∈ found ∨ Relation.TransGen (Edge own deps) n d.name) ∧
    (findLastAssignment as n).isSome = true ∧
    (∀ d ∈ found', d ∈ found ∨ (findLastAssignment as d.name).isSome = true) := by
  intro fuel
  induction fuel with
  | zero => intro n found found' h; cases h
  | succ fuel ih =>
    intro n found found' h
    rw [depsRec_succ] at h
    cases hl : findLastAssignment as n with
    | none => rw [hl] at h; cases h
    | some a =>
      rw [hl] at h
      dsimp only at h
      have key : ∀ (l : List Dep), (∀ d ∈ l, d ∈ deps n) → ∀ F F', l.foldlM (depStep as own deps fuel) F = .ok F' →
          (∀ d ∈ F, d ∈ F') ∧ (∀ d ∈ l, d.isLocal own = true → d ∈ F') ∧
          (∀ d ∈ F', d ∈ F ∨ Closed own deps F' d.name) ∧
          (∀ d ∈ F', d ∈ F ∨ Relation.TransGen (Edge own deps) n d.name) ∧
          (∀ d ∈ F', d ∈ F ∨ (findLastAssignment as d.name).isSome = true) := by
        intro l
        induction l with
        | nil =>
          intro _ F F' h
          simp only [List.foldlM_nil, Res.pure_eq, Res.ok.injEq] at h
          subst h
          exact ⟨fun _ h => h, by simp, fun _ h => .inl h, fun _ h => .inl h, fun _ h => .inl h⟩
        | cons d l ihl =>
          intro hm F F' h
          rw [List.foldlM_cons] at h
          obtain ⟨G, h1, h2⟩ := Res.bind_eq_ok.1 h
          obtain ⟨k1, k2, k3, k4, k5⟩ := ihl (fun x hx => hm x (by simp [hx])) G F' h2
          have step : (∀ x ∈ F, x ∈ G) ∧ (d.isLocal own = true → d ∈ G) ∧ (∀ x ∈ G, x ∈ F ∨ Closed own deps G x.name) ∧
              (∀ x ∈ G, x ∈ F ∨ Relation.TransGen (Edge own deps) n x.name) ∧
              (∀ x ∈ G, x ∈ F ∨ (findLastAssignment as x.name).isSome = true) := by
            unfold depStep at h1
            split at h1
            · rename_i hloc
              split at h1
              · rename_i hc
                cases h1
                exact ⟨fun _ h => h, fun _ => by simpa using hc, fun _ h => .inl h, fun _ h => .inl h, fun _ h => .inl h⟩
              · obtain ⟨i1, i2, i3, i4, i5, i6⟩ := ih _ _ _ h1
                have he : Edge own deps n d.name := ⟨d, hm d (by simp), hloc, rfl⟩
                refine ⟨fun x hx => i1 x (by simp [hx]), fun _ => i1 d (by simp), fun x hx => ?_, fun x hx => ?_, fun x hx => ?_⟩
                · rcases i3 x hx with h | h
                  · rcases List.mem_cons.1 h with rfl | h
                    · exact .inr i2
                    · exact .inl h
                  · exact .inr h
                · rcases i4 x hx with h | h
                  · rcases List.mem_cons.1 h with rfl | h
                    · exact .inr (.single he)
                    · exact .inl h
                  · exact .inr (Relation.TransGen.trans (.single he) h)
                · rcases i6 x hx with h | h
                  · rcases List.mem_cons.1 h with rfl | h
                    · exact .inr i5
                    · exact .inl h
                  · exact .inr h
            · rename_i hloc
              cases h1
              exact ⟨fun _ h => h, fun h => absurd h hloc, fun _ h => .inl h, fun _ h => .inl h, fun _ h => .inl h⟩
          obtain ⟨s1, s2, s3, s4, s5⟩ := step
          refine ⟨fun x hx => k1 x (s1 x hx), fun x hx hxl => ?_, fun x hx => ?_, fun x hx => ?_, fun x hx => ?_⟩
          · rcases List.mem_cons.1 hx with rfl | hx
            · exact k1 _ (s2 hxl)
            · exact k2 x hx hxl
          · rcases k3 x hx with h | h
            · rcases s3 x h with h | h
              · exact .inl h
              · exact .inr (h.mono k1)
            · exact .inr h
          · rcases k4 x hx with h | h
            · exact s4 x h
            · exact .inr h
          · rcases k5 x hx with h | h
            · exact s5 x h
            · exact .inr h
      obtain ⟨k1, k2, k3, k4, k5⟩ := key (deps n) (fun _ h => h) found found' h
      exact ⟨k1, k2, k3, k4, by rfl, k5⟩

/-- `isCircular` decides whether `name` can be reached from one of the names `ds`. -/
theorem isCircular_ok {as : List Assignment} {own : Name} {deps : Name → List Dep} {name : Name} {ds : List Name} {b : Bool}
    (h : isCircular as own deps name ds = .ok b) :
    (b = true ↔ ∃ d ∈ ds, Relation.TransGen (Edge own deps) d name) ∧
    (∀ d ∈ ds, (findLastAssignment as d).isSome = true) ∧
    (∀ d ∈ ds, ∀ v, Edge own deps d v → (findLastAssignment as v).isSome = true) := by
  unfold isCircular at h
  obtain ⟨all, h1, h2⟩ := Res.bind_eq_ok.1 h
  cases h2
  have key : ∀ (l : List Name) F F', l.foldlM (fun found d => depsRec as own deps (depFuel as) d found) F = .ok F' →
      (∀ d ∈ F, d ∈ F') ∧ (∀ n ∈ l, Closed own deps F' n) ∧ (∀ d ∈ F', d ∈ F ∨ Closed own deps F' d.name) ∧
      (∀ d ∈ F', d ∈ F ∨ ∃ n ∈ l, Relation.TransGen (Edge own deps) n d.name) ∧
      (∀ n ∈ l, (findLastAssignment as n).isSome = true) ∧
      (∀ d ∈ F', d ∈ F ∨ (findLastAssignment as d.name).isSome = true) := by
    intro l
    induction l with
    | nil =>
      intro F F' h
      simp only [List.foldlM_nil, Res.pure_eq, Res.ok.injEq] at h
      subst h
      exact ⟨fun _ h => h, by simp, fun _ h => .inl h, fun _ h => .inl h, by simp, fun _ h => .inl h⟩
    | cons n l ih =>
      intro F F' h
      rw [List.foldlM_cons] at h
      obtain ⟨G, h1, h2⟩ := Res.bind_eq_ok.1 h
      obtain ⟨k1, k2, k3, k4, k5, k6⟩ := ih G F' h2
      obtain ⟨s1, s2, s3, s4, s5, s6⟩ := depsRec_ok _ _ _ _ _ _ _ h1
      refine ⟨fun x hx => k1 x (s1 x hx), fun x hx => ?_, fun x hx => ?_, fun x hx => ?_, fun x hx => ?_, fun x hx => ?_⟩
      · rcases List.mem_cons.1 hx with rfl | hx
        · exact s2.mono k1
        · exact k2 x hx
      · rcases k3 x hx with h | h
        · rcases s3 x h with h | h
          · exact .inl h
          · exact .inr (h.mono k1)
        · exact .inr h
      · rcases k4 x hx with h | ⟨m, hm, h⟩
        · rcases s4 x h with h | h
          · exact .inl h
          · exact .inr ⟨n, by simp, h⟩
        · exact .inr ⟨m, by simp [hm], h⟩
      · rcases List.mem_cons.1 hx with rfl | hx
        · exact s5
        · exact k5 x hx
      · rcases k6 x hx with h | h
        · exact s6 x h
        · exact .inr h
  obtain ⟨_, k2, k3, k4, k5, k6⟩ := key ds [] all h1
  have reach : ∀ d ∈ ds, ∀ v, Relation.TransGen (Edge own deps) d v → ∃ e ∈ all, e.name = v := by
    intro d hd v hv
    induction hv with
    | single he =>
      obtain ⟨e, he1, he2, he3⟩ := he
      exact ⟨e, k2 d hd e he1 he2, he3⟩
    | tail _ he ih =>
      obtain ⟨x, hx, hxn⟩ := ih
      obtain ⟨e, he1, he2, he3⟩ := he
      rcases k3 x hx with h | h
      · simp at h
      · exact ⟨e, h e (hxn ▸ he1) he2, he3⟩
  refine ⟨?_, k5, ?_⟩
  · rw [List.any_eq_true]
    constructor
    · rintro ⟨d, hd, he⟩
      have he : d.name = name := by simpa using he
      rcases k4 d hd with h | ⟨n, hn, h⟩
      · simp at h
      · exact ⟨n, hn, he ▸ h⟩
    · rintro ⟨d, hd, h⟩
      obtain ⟨e, he, hen⟩ := reach d hd name h
      exact ⟨e, he, by simpa using hen⟩
  · intro d hd v hv
    obtain ⟨e, he, hen⟩ := reach d hd v (.single hv)
    rcases k6 e he with h | h
    · simp at h
    · rw [← hen]; exact h

/-! ## `resolveDeps`, successful runs -/

/-- How the pass may change the components of a SEQUENCE or SET; `circ` is why. -/
inductive MarkedComps (circ : Comp → Prop) : List Comp → List Comp → Prop where
  | nil : MarkedComps circ [] []
  | keep {c : Comp} {cs cs' : List Comp} : MarkedComps circ cs cs' → MarkedComps circ (c :: cs) (c :: cs')
  | mark {c : Comp} {cs cs' : List Comp} : c.optional = true → c.default = none → circ c →
      MarkedComps circ cs cs' → MarkedComps circ (c :: cs) (markComp c :: cs')

/-- The definition reaches itself (`none`), or the type of its component does (`some c`). -/
def Circ (own : Name) (as : List Assignment) (n : Name) : Option Comp → Prop
  | none => Relation.TransGen (Edge own (initState as).deps) n n
  | some c => ∃ d ∈ dependsOn c.type, Relation.TransGen (Edge own (initState as).deps) d.name n

/-- How the pass may change an assignment. -/
inductive Marked (own : Name) (as : List Assignment) : Assignment → Assignment → Prop where
  | same (a : Assignment) : Marked own as a a
  | choice {a : Assignment} {alts : List Named} {s : Storage} : a.body = .type (.choice alts s) →
      Circ own as a.name none → Marked own as a { a with body := .type (.choice (alts.map markAlt) .dynamic) }
  | setOf {a : Assignment} {n : Option Name} {t : AType} {s : Storage} : a.body = .type (.setOf n t s) →
      Circ own as a.name none → Marked own as a { a with body := .type (.setOf n t .dynamic) }
  | seqOf {a : Assignment} {n : Option Name} {t : AType} {s : Storage} : a.body = .type (.seqOf n t s) →
      Circ own as a.name none → Marked own as a { a with body := .type (.seqOf n t .dynamic) }
  | sequence {a : Assignment} {cs cs' : List Comp} {e : Bool} : a.body = .type (.sequence cs e) →
      MarkedComps (fun c => Circ own as a.name (some c)) cs cs' → Marked own as a { a with body := .type (.sequence cs' e) }
  | set {a : Assignment} {cs cs' : List Comp} {e : Bool} : a.body = .type (.set cs e) →
      MarkedComps (fun c => Circ own as a.name (some c)) cs cs' → Marked own as a { a with body := .type (.set cs' e) }

theorem Marked.name {own : Name} {as : List Assignment} {a a' : Assignment} (h : Marked own as a a') : a'.name = a.name := by
  cases h <;> rfl

/-- What holds of the state between calls. -/
structure DInv (as : List Assignment) (s : DepState) : Prop where
  deps : ∀ n, n ∉ s.assigned → s.deps n = (initState as).deps n
  sub : ∀ n d, d ∈ s.deps n → d ∈ (initState as).deps n
  vis : ∀ n ∈ s.assigned, n ∈ s.visited
  out : ∀ n, n ∈ s.assigned ↔ n ∈ s.out.map (·.name)
  def_ : ∀ n ∈ s.assigned, (findLastAssignment as n).isSome = true

/-- What has to come before the entry `a'`. -/
def Before (as : List Assignment) (tree : Tree) (own : Name) (a' : Assignment) (n : Name) : Prop :=
  Needs tree own a'.body n ∨ ∃ a, findLastAssignment as a'.name = some a ∧ HardUse tree own [a] a.name n

/-- What a successful call does: it appends `add`. -/
structure DStep (as : List Assignment) (tree : Tree) (own : Name) (s s' : DepState) (add : List Assignment) : Prop where
  out : s'.out = s.out ++ add
  assigned : ∀ n, n ∈ s'.assigned ↔ n ∈ s.assigned ∨ n ∈ add.map (·.name)
  visited : ∀ n, n ∈ s'.visited ↔ n ∈ s.visited ∨ n ∈ add.map (·.name)
  fresh : ∀ n ∈ add.map (·.name), n ∉ s.visited
  nodup : (add.map (·.name)).Nodup
  deps : ∀ n, n ∉ add.map (·.name) → s'.deps n = s.deps n
  sub : ∀ n d, d ∈ s'.deps n → d ∈ s.deps n
  entries : ∀ a' ∈ add, ∃ a, findLastAssignment as a'.name = some a ∧ Marked own as a a' ∧
    (NoInnerSetDefaults as → ∀ n, Refs tree own a.body n → (findLastAssignment as n).isSome = true)
  order : NoInnerSetDefaults as → ∀ pre a' post, add = pre ++ a' :: post → ∀ n, Before as tree own a' n → n ∈ s.assigned ∨ n ∈ pre.map (·.name)

theorem DStep.refl (as : List Assignment) (tree : Tree) (own : Name) (s : DepState) : DStep as tree own s s [] where
  out := by simp
  assigned := by simp
  visited := by simp
  fresh := by simp
  nodup := by simp
  deps _ _ := rfl
  sub _ _ h := h
  entries := by simp
  order := by intro _ pre a post h; simp at h

theorem append_cons_split {α : Type} {x y pre post : List α} {a : α} (h : x ++ y = pre ++ a :: post) :
    (∃ q, x = pre ++ a :: q ∧ post = q ++ y) ∨ ∃ p, pre = x ++ p ∧ y = p ++ a :: post := by
  rcases List.append_eq_append_iff.1 h with ⟨c, h1, h2⟩ | ⟨c, h1, h2⟩
  · exact .inr ⟨c, h1, h2⟩
  · cases c with
    | nil => exact .inr ⟨[], by simpa using h1.symm, by simpa using h2.symm⟩
    | cons b c =>
      rw [List.cons_append, List.cons.injEq] at h2
      obtain ⟨rfl, h2⟩ := h2
      exact .inl ⟨c, h1, h2⟩

theorem DStep.trans {as : List Assignment} {tree : Tree} {own : Name} {a b c : DepState} {x y : List Assignment}
    (h : DStep as tree own a b x) (h' : DStep as tree own b c y) : DStep as tree own a c (x ++ y) where
  out := by rw [h'.out, h.out, List.append_assoc]
  assigned n := by rw [h'.assigned, h.assigned, List.map_append, List.mem_append, or_assoc]
  visited n := by rw [h'.visited, h.visited, List.map_append, List.mem_append, or_assoc]
  fresh n hn hv := by
    rw [List.map_append, List.mem_append] at hn
    rcases hn with hn | hn
    · exact h.fresh n hn hv
    · exact h'.fresh n hn ((h.visited n).2 (.inl hv))
  nodup := by
    rw [List.map_append, List.nodup_append]
    refine ⟨h.nodup, h'.nodup, fun n hn m hm e => ?_⟩
    subst e
    exact h'.fresh n hm ((h.visited n).2 (.inr hn))
  deps n hn := by
    rw [List.map_append, List.mem_append, not_or] at hn
    rw [h'.deps n hn.2, h.deps n hn.1]
  sub n d hd := h.sub n d (h'.sub n d hd)
  entries a' ha := by
    rcases List.mem_append.1 ha with ha | ha
    · exact h.entries a' ha
    · exact h'.entries a' ha
  order hs pre a' post e n hn := by
    rcases append_cons_split e with ⟨q, h1, _⟩ | ⟨p, h1, h2⟩
    · exact h.order hs pre a' q h1 n hn
    · rw [h1, List.map_append, List.mem_append]
      rcases h'.order hs p a' post h2 n hn with h3 | h3
      · rcases (h.assigned n).1 h3 with h3 | h3
        · exact .inl h3
        · exact .inr (.inl h3)
      · exact .inr (.inr h3)

theorem DStep.inv {as : List Assignment} {tree : Tree} {own : Name} {s s' : DepState} {add : List Assignment}
    (h : DStep as tree own s s' add) (hi : DInv as s) : DInv as s' where
  deps n hn := by
    rw [h.assigned, not_or] at hn
    rw [h.deps n hn.2, hi.deps n hn.1]
  sub n d hd := hi.sub n d (h.sub n d hd)
  vis n hn := by
    rw [h.visited]
    rcases (h.assigned n).1 hn with hn | hn
    · exact .inl (hi.vis n hn)
    · exact .inr hn
  out n := by rw [h.assigned, hi.out, h.out, List.map_append, List.mem_append]
  def_ n hn := by
    rcases (h.assigned n).1 hn with hn | hn
    · exact hi.def_ n hn
    · obtain ⟨a', ha', rfl⟩ := List.mem_map.1 hn
      obtain ⟨a, ha, _⟩ := h.entries a' ha'
      rw [ha]; rfl

/-- What the recursive call guarantees. -/
def RecOK (as : List Assignment) (tree : Tree) (own : Name) (rec : Name → DepState → Res DepState) : Prop :=
  ∀ n s s', DInv as s → rec n s = .ok s' → ∃ add, DStep as tree own s s' add ∧ n ∈ s'.assigned

theorem followAll_ok {as : List Assignment} {tree : Tree} {own : Name} {rec : Name → DepState → Res DepState}
    (hr : RecOK as tree own rec) : ∀ (ns : List Name) s s', DInv as s → followAll rec ns s = .ok s' →
    ∃ add, DStep as tree own s s' add ∧ ∀ n ∈ ns, n ∈ s'.assigned := by
  intro ns
  induction ns with
  | nil =>
    intro s s' _ h
    simp only [followAll, List.foldlM_nil, Res.pure_eq, Res.ok.injEq] at h
    subst h
    exact ⟨[], .refl .., by simp⟩
  | cons n ns ih =>
    intro s s' hi h
    unfold followAll at h
    rw [List.foldlM_cons] at h
    obtain ⟨t, h1, h2⟩ := Res.bind_eq_ok.1 h
    obtain ⟨x, k1, k2⟩ := hr n s t hi h1
    obtain ⟨y, j1, j2⟩ := ih t s' (k1.inv hi) h2
    refine ⟨x ++ y, k1.trans j1, fun m hm => ?_⟩
    rcases List.mem_cons.1 hm with rfl | hm
    · exact (j1.assigned _).2 (.inl k2)
    · exact j2 m hm

theorem resolveDefined_leaf {tree : Tree} {cur : Name} {k : Builtin} : ∀ fuel mod m ref r,
    resolveDefined tree cur fuel mod m ref = .ok r → r.type = .leaf k →
    ∃ n m', StandsFor tree (m.getD mod) ref n (.leaf k) m' := by
  intro fuel
  induction fuel with
  | zero => intro mod m ref r h; cases h
  | succ fuel ih =>
    intro mod m ref r h hk
    rw [resolveDefined] at h
    obtain ⟨wm, h1, h2⟩ := Res.bind_eq_ok.1 h
    obtain ⟨a, h3, h4⟩ := Res.bind_eq_ok.1 h2
    have hl : lookup tree (m.getD mod) ref = some a.body := by
      unfold findModule at h1
      unfold findAssignment at h3
      unfold lookup
      split at h1
      · rename_i m' hm
        cases h1
        rw [hm]
        split at h3
        · rename_i a' ha
          cases h3
          simp [ha]
        · cases h3
      · cases h1
    split at h4
    · rename_i m' ref' ps hb
      obtain ⟨n, mm, hs⟩ := ih _ _ _ _ h4 hk
      rw [hb] at hl
      exact ⟨n, mm, .alias hl hs⟩
    · obtain ⟨inner, _, h5⟩ := Res.bind_eq_ok.1 h4
      cases h5
      cases hk
    · rename_i t _ _ hb
      cases h4
      dsimp only at hk
      rw [hb, hk] at hl
      exact ⟨ref, _, .here hl (fun m r h => by cases h)⟩
    · cases h4

theorem resolveType_enum {tree : Tree} {own : Name} {rf : Nat} {n : Name} {r : Resolved} : ∀ {t : AType},
    resolveType tree own rf n t = .ok r → r.type = .leaf .enumerated → EnumType tree own t := by
  have key : ∀ t : AType, resolveType tree own rf n t = .ok r → r.type = .leaf .enumerated →
      ∃ nm m, TypeStandsFor tree own n t nm (.leaf .enumerated) m := by
    intro t
    fun_induction resolveType tree own rf n t with
    | case1 m ref ps =>
      intro h hk
      obtain ⟨n', m', hs⟩ := resolveDefined_leaf _ _ _ _ _ h hk
      exact ⟨n', m', .reference (ps := ps) (by simp [untag]) hs⟩
    | case2 c k tm t ih =>
      intro h hk
      obtain ⟨nm, m, hs⟩ := ih h hk
      refine ⟨nm, m, ?_⟩
      generalize hg : AType.leaf .enumerated = l at hs ⊢
      cases hs with
      | reference h1 h2 => exact .reference (by rw [untag]; exact h1) h2
      | itself h1 h2 =>
        have : TypeStandsFor tree own n (.prefixed c k tm t) n (untag (.prefixed c k tm t)) own :=
          .itself (by rw [untag]; exact h1) h2
        rwa [untag] at this
    | case3 t h1 h2 =>
      intro h hk
      obtain ⟨m, h3, h4⟩ := Res.bind_eq_ok.1 h
      cases h4
      dsimp only at hk
      subst hk
      refine ⟨n, own, .itself (by simp [untag]) ?_⟩
      unfold findModule at h3
      split at h3
      · rename_i m' hm
        exact ⟨m', List.mem_of_find?_eq_some hm, by simpa using List.find?_some hm⟩
      · cases h3
  intro t h hk
  obtain ⟨nm, m, hs⟩ := key t h hk
  exact .inr ⟨n, nm, m, hs⟩

theorem Edge.mono {own : Name} {deps deps' : Name → List Dep} (h : ∀ n d, d ∈ deps n → d ∈ deps' n) {u v : Name}
    (he : Edge own deps u v) : Edge own deps' u v := by
  obtain ⟨d, h1, h2⟩ := he
  exact ⟨d, h _ _ h1, h2⟩

theorem transGen_mono {α : Type} {r r' : α → α → Prop} (h : ∀ a b, r a b → r' a b) {a b : α} (ht : Relation.TransGen r a b) :
    Relation.TransGen r' a b := by
  induction ht with
  | single h1 => exact .single (h _ _ h1)
  | tail _ h1 ih => exact .tail ih (h _ _ h1)

/-- What is known about a component after it was dealt with. -/
def CompDone (as : List Assignment) (tree : Tree) (own : Name) (name : Name) (c c' : Comp) (done : List Name) : Prop :=
  (c' = c ∧ (∀ d ∈ dependsOn c.type, d.name ∈ done) ∧
    ∀ v, c.default = some (.defined v) → EnumType tree own c.type ∨ v ∈ done) ∨
  (c' = markComp c ∧ c.optional = true ∧ c.default = none ∧ Circ own as name (some c) ∧
    ∀ d ∈ dependsOn c.type, (findLastAssignment as d.name).isSome = true)

theorem CompDone.mono {as : List Assignment} {tree : Tree} {own name : Name} {c c' : Comp} {d d' : List Name}
    (h : CompDone as tree own name c c' d) (hd : ∀ n ∈ d, n ∈ d') : CompDone as tree own name c c' d' := by
  rcases h with ⟨h1, h2, h3⟩ | h
  · exact .inl ⟨h1, fun d hd' => hd _ (h2 d hd'), fun v hv => (h3 v hv).imp id (hd v)⟩
  · exact .inr h

theorem followComp_ok {as : List Assignment} {tree : Tree} {own : Name} {rf : Nat} {rec : Name → DepState → Res DepState}
    (hr : RecOK as tree own rec) {name : Name} {c c' : Comp} {s s' : DepState} (hi : DInv as s)
    (h : followComp as tree own rf rec name c s = .ok (c', s')) :
    ∃ add, DStep as tree own s s' add ∧ CompDone as tree own name c c' s'.assigned := by
  unfold followComp at h
  cases hd : c.default with
  | some v =>
    rw [hd] at h
    obtain ⟨s1, h1, h2⟩ := Res.bind_eq_ok.1 h
    obtain ⟨s2, h3, h4⟩ := Res.bind_eq_ok.1 h2
    cases h4
    obtain ⟨x, k1, k2⟩ := followAll_ok hr _ _ _ hi h1
    have hdef : ∃ y, DStep as tree own s1 s' y ∧ ∀ w, v = .defined w → EnumType tree own c.type ∨ w ∈ s'.assigned := by
      unfold followDefault at h3
      split at h3
      · rename_i w
        obtain ⟨r, h5, h6⟩ := Res.bind_eq_ok.1 h3
        split at h6
        · rename_i he
          cases h6
          exact ⟨[], .refl .., fun w' _ => .inl (resolveType_enum h5 ((isEnumerated_iff _).1 he))⟩
        · obtain ⟨y, j1, j2⟩ := hr _ _ _ (k1.inv hi) h6
          exact ⟨y, j1, fun w' e => by cases e; exact .inr j2⟩
      · rename_i hn
        cases h3
        exact ⟨[], .refl .., fun w e => absurd e (hn w)⟩
    obtain ⟨y, j1, j2⟩ := hdef
    refine ⟨x ++ y, k1.trans j1, .inl ⟨rfl, fun d hd' => ?_, fun w hw => ?_⟩⟩
    · exact (j1.assigned _).2 (.inl (k2 _ (List.mem_map_of_mem (f := (·.name)) hd')))
    · rw [hd] at hw
      cases hw
      exact j2 w rfl
  | none =>
    rw [hd] at h
    dsimp only at h
    have plain : ∀ {s1}, followAll rec ((dependsOn c.type).map (·.name)) s = .ok s1 → (c, s1) = (c', s') →
        ∃ add, DStep as tree own s s' add ∧ CompDone as tree own name c c' s'.assigned := by
      intro s1 h1 h2
      cases h2
      obtain ⟨x, k1, k2⟩ := followAll_ok hr _ _ _ hi h1
      refine ⟨x, k1, .inl ⟨rfl, fun d hd' => k2 _ (List.mem_map_of_mem (f := (·.name)) hd'), fun w hw => ?_⟩⟩
      rw [hd] at hw; cases hw
    split at h
    · rename_i hopt
      obtain ⟨b, h1, h2⟩ := Res.bind_eq_ok.1 h
      obtain ⟨k1, k2, _⟩ := isCircular_ok h1
      split at h2
      · rename_i hb
        cases h2
        refine ⟨[], .refl .., .inr ⟨rfl, hopt, hd, ?_, fun d hd' => k2 _ (List.mem_map_of_mem (f := (·.name)) hd')⟩⟩
        obtain ⟨n, hn, ht⟩ := k1.1 hb
        obtain ⟨d, hd', rfl⟩ := List.mem_map.1 hn
        exact ⟨d, hd', transGen_mono (fun _ _ => Edge.mono hi.sub) ht⟩
      · obtain ⟨s1, h3, h4⟩ := Res.bind_eq_ok.1 h2
        exact plain h3 (by simpa using h4)
    · obtain ⟨s1, h3, h4⟩ := Res.bind_eq_ok.1 h
      exact plain h3 (by simpa using h4)

/-- Componentwise. -/
inductive CompsDone (as : List Assignment) (tree : Tree) (own name : Name) (done : List Name) : List Comp → List Comp → Prop where
  | nil : CompsDone as tree own name done [] []
  | cons {c c' : Comp} {cs cs' : List Comp} : CompDone as tree own name c c' done → CompsDone as tree own name done cs cs' →
      CompsDone as tree own name done (c :: cs) (c' :: cs')

theorem followComps_ok {as : List Assignment} {tree : Tree} {own : Name} {rf : Nat} {rec : Name → DepState → Res DepState}
    (hr : RecOK as tree own rec) {name : Name} : ∀ (cs cs' : List Comp) (s s' : DepState), DInv as s →
    followComps as tree own rf rec name cs s = .ok (cs', s') →
    ∃ add, DStep as tree own s s' add ∧ CompsDone as tree own name s'.assigned cs cs' := by
  intro cs
  induction cs with
  | nil =>
    intro cs' s s' _ h
    simp only [followComps, Res.ok.injEq, Prod.mk.injEq] at h
    obtain ⟨rfl, rfl⟩ := h
    exact ⟨[], .refl .., .nil⟩
  | cons c cs ih =>
    intro cs' s s' hi h
    rw [followComps] at h
    obtain ⟨⟨c', s1⟩, h1, h2⟩ := Res.bind_eq_ok.1 h
    obtain ⟨⟨cs1, s2⟩, h3, h4⟩ := Res.bind_eq_ok.1 h2
    cases h4
    obtain ⟨x, k1, k2⟩ := followComp_ok hr hi h1
    obtain ⟨y, j1, j2⟩ := ih _ _ _ (k1.inv hi) h3
    exact ⟨x ++ y, k1.trans j1, .cons (k2.mono fun n hn => (j1.assigned n).2 (.inl hn)) j2⟩

theorem CompsDone.marked {as : List Assignment} {tree : Tree} {own name : Name} {done : List Name} {cs cs' : List Comp}
    (h : CompsDone as tree own name done cs cs') : MarkedComps (fun c => Circ own as name (some c)) cs cs' := by
  induction h with
  | nil => exact .nil
  | cons h _ ih =>
    rcases h with ⟨rfl, _⟩ | ⟨rfl, h1, h2, h3, _⟩
    · exact .keep ih
    · exact .mark h1 h2 h3 ih

theorem CompsDone.of_mem' {as : List Assignment} {tree : Tree} {own name : Name} {done : List Name} {cs cs' : List Comp}
    (h : CompsDone as tree own name done cs cs') {c' : Comp} (hc : c' ∈ cs') : ∃ c ∈ cs, CompDone as tree own name c c' done := by
  induction h with
  | nil => cases hc
  | cons h _ ih =>
    rcases List.mem_cons.1 hc with rfl | hc
    · exact ⟨_, by simp, h⟩
    · obtain ⟨c, h1, h2⟩ := ih hc
      exact ⟨c, by simp [h1], h2⟩

theorem CompsDone.of_mem {as : List Assignment} {tree : Tree} {own name : Name} {done : List Name} {cs cs' : List Comp}
    (h : CompsDone as tree own name done cs cs') {c : Comp} (hc : c ∈ cs) : ∃ c' ∈ cs', CompDone as tree own name c c' done := by
  induction h with
  | nil => cases hc
  | cons h _ ih =>
    rcases List.mem_cons.1 hc with rfl | hc
    · exact ⟨_, by simp, h⟩
    · obtain ⟨c, h1, h2⟩ := ih hc
      exact ⟨c, by simp [h1], h2⟩

theorem enum_enum (tree : Tree) (own : Name) : EnumType tree own (.leaf .enumerated) := .inl rfl

/-- Components: needs are done, references are defined. -/
theorem CompsDone.needs {as : List Assignment} {tree : Tree} {own name : Name} {done : List Name} {cs cs' : List Comp}
    (h : CompsDone as tree own name done cs cs') (hs : ∀ c ∈ cs, SetFree c.type) {c' : Comp} (hc : c' ∈ cs')
    (hst : c'.optional = true → c'.storage ≠ .dynamic) {n : Name}
    (hu : Uses own (fun s => s ≠ .dynamic) (EnumType tree own) c'.type n) : n ∈ done := by
  obtain ⟨c, h1, h2⟩ := h.of_mem' hc
  rcases h2 with ⟨rfl, h2, _⟩ | ⟨rfl, h2, _⟩
  · obtain ⟨d, hd, _, rfl⟩ := dep_of_uses (enum_enum tree own) hu (hs _ h1)
    exact h2 d hd
  · cases c
    exact absurd rfl (hst h2)

theorem CompsDone.needsDefault {as : List Assignment} {tree : Tree} {own name : Name} {done : List Name} {cs cs' : List Comp}
    (h : CompsDone as tree own name done cs cs') {c' : Comp} (hc : c' ∈ cs') {v : Name} (hv : c'.default = some (.defined v))
    (he : ¬ EnumType tree own c'.type) : v ∈ done := by
  obtain ⟨c, h1, h2⟩ := h.of_mem' hc
  rcases h2 with ⟨rfl, _, h3⟩ | ⟨rfl, _, h3, _⟩
  · exact (h3 v hv).resolve_left he
  · cases c
    dsimp only [markComp, Comp.default] at hv h3
    rw [h3] at hv; cases hv

theorem CompsDone.refs {as : List Assignment} {tree : Tree} {own name : Name} {done : List Name} {cs cs' : List Comp}
    (h : CompsDone as tree own name done cs cs') (hd : ∀ n ∈ done, (findLastAssignment as n).isSome = true)
    (hs : ∀ c ∈ cs, SetFree c.type) {c : Comp} (hc : c ∈ cs) {n : Name}
    (hu : Uses own (fun _ => True) (EnumType tree own) c.type n) : (findLastAssignment as n).isSome = true := by
  obtain ⟨c', _, h2⟩ := h.of_mem hc
  obtain ⟨d, hd', _, rfl⟩ := dep_of_uses (enum_enum tree own) hu (hs _ hc)
  rcases h2 with ⟨rfl, h2, _⟩ | ⟨_, _, _, _, h2⟩
  · exact hd _ (h2 d hd')
  · exact h2 d hd'

theorem CompsDone.refsDefault {as : List Assignment} {tree : Tree} {own name : Name} {done : List Name} {cs cs' : List Comp}
    (h : CompsDone as tree own name done cs cs') (hd : ∀ n ∈ done, (findLastAssignment as n).isSome = true)
    {c : Comp} (hc : c ∈ cs) {v : Name} (hv : c.default = some (.defined v)) (he : ¬ EnumType tree own c.type) :
    (findLastAssignment as v).isSome = true := by
  obtain ⟨c', _, h2⟩ := h.of_mem hc
  rcases h2 with ⟨rfl, _, h3⟩ | ⟨_, _, h3, _⟩
  · exact hd _ ((h3 v hv).resolve_left he)
  · rw [h3] at hv; cases hv

/-- No inner SET has a default that is a name, for one definition. -/
def BodySetFree (b : Body) : Prop :=
  (∀ t, b = .type t → ∀ u, Inside t u → ¬ SetWithDefaultName u) ∧ (∀ t v, b = .value t v → SetFree t)

/-- References of definitions other than SEQUENCE and SET are dependencies. -/
theorem dep_of_bodyUses {own : Name} {look : Storage → Prop} {item : AType → Prop} (hit : item (.leaf .enumerated))
    {a : Assignment} {n : Name} (h : BodyUses own look item a.body n) (hs : BodySetFree a.body)
    (hc : components a.body = none) : ∃ d ∈ dependencies a, d.isLocal own = true ∧ d.name = n := by
  unfold dependencies
  cases hb : a.body with
  | type t =>
    rw [hb] at h hs hc
    cases h with
    | type hu =>
      refine dep_of_uses hit hu ?_
      intro u hu'
      rcases hu' with rfl | hu'
      · rintro ⟨cs, e, rfl, _⟩
        simp [components] at hc
      · exact hs.1 t rfl u hu'
  | value t v =>
    rw [hb] at h hs
    cases h with
    | valueType hu =>
      obtain ⟨d, h1, h2⟩ := dep_of_uses hit hu (hs.2 _ _ rfl)
      refine ⟨d, ?_, h2⟩
      cases v <;> first | exact h1 | exact List.mem_append.2 (.inl h1)
    | value =>
      exact ⟨⟨n, none⟩, by simp, by simp [Dep.isLocal], rfl⟩
  | objectClass fs => rw [hb] at h; cases h
  | objectSet => rw [hb] at h; cases h

/-- What `followAssignment` guarantees: `m` is the state before the own dependencies may be cleared. -/
structure FollowOK (as : List Assignment) (tree : Tree) (own : Name) (a a' : Assignment) (s m s' : DepState)
    (add : List Assignment) : Prop where
  step : DStep as tree own s m add
  after : s' = m ∨ s' = m.clear a.name
  marked : Marked own as a a'
  needs : BodySetFree a.body → ∀ n, Needs tree own a'.body n → n ∈ m.assigned
  refs : BodySetFree a.body → ∀ n, Refs tree own a.body n → (findLastAssignment as n).isSome = true
  hard : BodySetFree a.body → ∀ n, HardUse tree own [a] a.name n → n ∈ m.assigned

/-- The hard uses of a definition that is not a SEQUENCE or SET. -/
theorem hard_other {tree : Tree} {own : Name} {a : Assignment} {n : Name} (hc : components a.body = none)
    (h : HardUse tree own [a] a.name n) : ¬ Recursive a.body ∧ Mentions own a.body n := by
  generalize hl : [a] = l at h
  generalize hn : a.name = u at h
  cases h with
  | component h1 h2 => subst hl; rw [List.mem_singleton] at h1; subst h1; rw [hc] at h2; cases h2
  | default h1 h2 => subst hl; rw [List.mem_singleton] at h1; subst h1; rw [hc] at h2; cases h2
  | other h1 _ h3 h4 => subst hl; rw [List.mem_singleton] at h1; subst h1; exact ⟨h3, h4⟩

/-- The hard uses of a SEQUENCE or SET. -/
theorem hard_comps {tree : Tree} {own : Name} {a : Assignment} {n : Name} {cs : List Comp} (hc : components a.body = some cs)
    (h : HardUse tree own [a] a.name n) :
    (∃ c ∈ cs, (c.optional = false ∨ c.default.isSome = true) ∧ Mentions own (.type c.type) n) ∨
    ∃ c ∈ cs, c.default = some (.defined n) ∧ ¬ EnumType tree own c.type := by
  generalize hl : [a] = l at h
  generalize hn : a.name = u at h
  cases h with
  | component h1 h2 h3 h4 h5 =>
    subst hl; rw [List.mem_singleton] at h1; subst h1; rw [hc] at h2; cases h2
    exact .inl ⟨_, h3, h4, h5⟩
  | default h1 h2 h3 h4 h5 =>
    subst hl; rw [List.mem_singleton] at h1; subst h1; rw [hc] at h2; cases h2
    exact .inr ⟨_, h3, h4, h5⟩
  | other h1 h2 => subst hl; rw [List.mem_singleton] at h1; subst h1; rw [hc] at h2; cases h2

theorem CompsDone.hard {as : List Assignment} {tree : Tree} {own name : Name} {done : List Name} {cs cs' : List Comp}
    (h : CompsDone as tree own name done cs cs') {a : Assignment} (hb : components a.body = some cs)
    (hs : ∀ c ∈ cs, SetFree c.type) {n : Name} (hu : HardUse tree own [a] a.name n) : n ∈ done := by
  rcases hard_comps hb hu with ⟨c, hc, ho, hm⟩ | ⟨c, hc, hd, he⟩
  · obtain ⟨c', _, h2⟩ := h.of_mem hc
    cases hm with
    | type hm =>
      obtain ⟨d, hd, _, rfl⟩ := dep_of_uses (item := fun t => t = .leaf .enumerated) rfl hm (hs _ hc)
      rcases h2 with ⟨rfl, h2, _⟩ | ⟨_, h2, h3, _⟩
      · exact h2 d hd
      · rcases ho with ho | ho
        · rw [h2] at ho; cases ho
        · rw [h3] at ho; cases ho
  · obtain ⟨c', _, h2⟩ := h.of_mem hc
    rcases h2 with ⟨rfl, _, h3⟩ | ⟨_, _, h3, _⟩
    · exact (h3 n hd).resolve_left he
    · rw [h3] at hd; cases hd

theorem followBreakable_ok {as : List Assignment} {tree : Tree} {own : Name} {rec : Name → DepState → Res DepState}
    (hr : RecOK as tree own rec) {a a' : Assignment} {dyn : AType} {s s' : DepState} (hi : DInv as s)
    (hdeps : s.deps a.name = dependencies a) (hc : components a.body = none) (hrec : Recursive a.body)
    (hm : Circ own as a.name none → Marked own as a { a with body := .type dyn })
    (hn : ∀ n, ¬ Needs tree own (.type dyn) n)
    (h : followBreakable as own rec a dyn s = .ok (a', s')) : ∃ m add, FollowOK as tree own a a' s m s' add := by
  unfold followBreakable at h
  obtain ⟨b, h1, h2⟩ := Res.bind_eq_ok.1 h
  obtain ⟨k1, _, k3⟩ := isCircular_ok h1
  have hrefs : BodySetFree a.body → ∀ n, Refs tree own a.body n → (findLastAssignment as n).isSome = true := by
    intro hs n hn
    obtain ⟨d, h1, h2, h3⟩ := dep_of_bodyUses (enum_enum tree own) hn hs hc
    exact k3 a.name (by simp) n ⟨d, by rw [hdeps]; exact h1, h2, h3⟩
  split at h2
  · rename_i hb
    cases h2
    refine ⟨s, [], .refl .., .inr rfl, hm ?_, fun _ n h => absurd h (hn n), hrefs, fun _ n h => absurd hrec (hard_other hc h).1⟩
    obtain ⟨n, hn', ht⟩ := k1.1 hb
    rw [List.mem_singleton] at hn'
    subst hn'
    exact transGen_mono (fun _ _ => Edge.mono hi.sub) ht
  · obtain ⟨s1, h3, h4⟩ := Res.bind_eq_ok.1 h2
    cases h4
    obtain ⟨x, j1, j2⟩ := followAll_ok hr _ _ _ hi h3
    refine ⟨s', x, j1, .inl rfl, .same _, fun hs n hn => ?_, hrefs, fun _ n h => absurd hrec (hard_other hc h).1⟩
    obtain ⟨d, h1, h2, h3⟩ := dep_of_bodyUses (enum_enum tree own) hn hs hc
    refine j2 n (List.mem_map.2 ⟨d, List.mem_filter.2 ⟨by rw [hdeps]; exact h1, h2⟩, h3⟩)

theorem followOther_ok {as : List Assignment} {tree : Tree} {own : Name} {rec : Name → DepState → Res DepState}
    (hr : RecOK as tree own rec) {a a' : Assignment} {s s' : DepState} (hi : DInv as s)
    (hdeps : s.deps a.name = dependencies a) (hc : components a.body = none)
    (h : (do let s ← followAll rec (localDeps own (s.deps a.name)) s; Res.ok (a, s)) = .ok (a', s')) :
    ∃ m add, FollowOK as tree own a a' s m s' add := by
  obtain ⟨s1, h3, h4⟩ := Res.bind_eq_ok.1 h
  cases h4
  obtain ⟨x, j1, j2⟩ := followAll_ok hr _ _ _ hi h3
  have hall : BodySetFree a.body → ∀ look, ∀ n, BodyUses own look (EnumType tree own) a.body n → n ∈ s'.assigned := by
    intro hs look n hn
    obtain ⟨d, h1, h2, h3⟩ := dep_of_bodyUses (enum_enum tree own) hn hs hc
    exact j2 n (List.mem_map.2 ⟨d, List.mem_filter.2 ⟨by rw [hdeps]; exact h1, h2⟩, h3⟩)
  refine ⟨s', x, j1, .inl rfl, .same _, fun hs n hn => hall hs _ n hn, fun hs n hn => (j1.inv hi).def_ n (hall hs _ n hn),
    fun hs n hn => ?_⟩
  obtain ⟨d, h1, h2, h3⟩ := dep_of_bodyUses (item := fun t => t = .leaf .enumerated) rfl (hard_other hc hn).2 hs hc
  exact j2 n (List.mem_map.2 ⟨d, List.mem_filter.2 ⟨by rw [hdeps]; exact h1, h2⟩, h3⟩)

theorem followAssignment_ok {as : List Assignment} {tree : Tree} {own : Name} {rf : Nat} {rec : Name → DepState → Res DepState}
    (hr : RecOK as tree own rec) {a a' : Assignment} {s s' : DepState} (hi : DInv as s)
    (hdeps : s.deps a.name = dependencies a)
    (h : followAssignment as tree own rf rec a s = .ok (a', s')) : ∃ m add, FollowOK as tree own a a' s m s' add := by
  have noDyn1 : ∀ as' n, ¬ Needs tree own (.type (.choice as' .dynamic)) n := by
    intro as' n h
    cases h with
    | type h => cases h with | choice h => exact h rfl
  have noDyn2 : ∀ m t n, ¬ Needs tree own (.type (.setOf m t .dynamic)) n := by
    intro m t n h
    cases h with
    | type h => cases h with | setOf h => exact h rfl
  have noDyn3 : ∀ m t n, ¬ Needs tree own (.type (.seqOf m t .dynamic)) n := by
    intro m t n h
    cases h with
    | type h => cases h with | seqOf h => exact h rfl
  unfold followAssignment at h
  split at h
  · rename_i alts st hb
    exact followBreakable_ok hr hi hdeps (by rw [hb]; rfl) (by rw [hb]; trivial) (fun hc => .choice hb hc) (noDyn1 _) h
  · rename_i n t st hb
    exact followBreakable_ok hr hi hdeps (by rw [hb]; rfl) (by rw [hb]; trivial) (fun hc => .setOf hb hc) (noDyn2 _ _) h
  · rename_i n t st hb
    exact followBreakable_ok hr hi hdeps (by rw [hb]; rfl) (by rw [hb]; trivial) (fun hc => .seqOf hb hc) (noDyn3 _ _) h
  · rename_i cs e hb
    obtain ⟨⟨cs', s1⟩, h1, h2⟩ := Res.bind_eq_ok.1 h
    cases h2
    obtain ⟨x, k1, k2⟩ := followComps_ok hr _ _ _ _ hi h1
    have hsf : BodySetFree a.body → ∀ c ∈ cs, SetFree c.type := fun hs c hc => .of_inside (hs.1 _ hb) (.sequence hc)
    refine ⟨s', x, k1, .inl rfl, .sequence hb k2.marked, fun hs n hn => ?_, fun hs n hn => ?_,
      fun hs n hn => k2.hard (by rw [hb]; rfl) (hsf hs) hn⟩
    · cases hn with
      | type hn =>
        cases hn with
        | sequence hc hst hu => exact k2.needs (hsf hs) hc hst hu
        | sequenceDefault hc hv he => exact k2.needsDefault hc hv he
    · rw [hb] at hn
      cases hn with
      | type hn =>
        cases hn with
        | sequence hc _ hu => exact k2.refs (k1.inv hi).def_ (hsf hs) hc hu
        | sequenceDefault hc hv he => exact k2.refsDefault (k1.inv hi).def_ hc hv he
  · rename_i cs e hb
    obtain ⟨⟨cs', s1⟩, h1, h2⟩ := Res.bind_eq_ok.1 h
    cases h2
    obtain ⟨x, k1, k2⟩ := followComps_ok hr _ _ _ _ hi h1
    have hsf : BodySetFree a.body → ∀ c ∈ cs, SetFree c.type := fun hs c hc => .of_inside (hs.1 _ hb) (.set hc)
    refine ⟨s', x, k1, .inl rfl, .set hb k2.marked, fun hs n hn => ?_, fun hs n hn => ?_,
      fun hs n hn => k2.hard (by rw [hb]; rfl) (hsf hs) hn⟩
    · cases hn with
      | type hn =>
        cases hn with
        | set hc hst hu => exact k2.needs (hsf hs) hc hst hu
        | setDefault hc hv he => exact k2.needsDefault hc hv he
    · rw [hb] at hn
      cases hn with
      | type hn =>
        cases hn with
        | set hc _ hu => exact k2.refs (k1.inv hi).def_ (hsf hs) hc hu
        | setDefault hc hv he => exact k2.refsDefault (k1.inv hi).def_ hc hv he
  · rename_i g1 g2 g3 g4 g5
    refine followOther_ok hr hi hdeps ?_ h
    unfold components
    split
    · rename_i cs e hb; exact absurd hb (g4 _ _)
    · rename_i cs e hb; exact absurd hb (g5 _ _)
    · rfl

theorem resolveDeps_ok {as : List Assignment} {tree : Tree} {own : Name} {rf : Nat} :
    ∀ fuel, RecOK as tree own (resolveDeps as tree own rf fuel) := by
  intro fuel
  induction fuel with
  | zero => intro n s s' _ h; cases h
  | succ fuel ih =>
    intro name s s' hi h
    rw [resolveDeps] at h
    cases hl : findLastAssignment as name with
    | none => rw [hl] at h; cases h
    | some a =>
      rw [hl] at h
      dsimp only at h
      split at h
      · rename_i ha
        cases h
        exact ⟨[], .refl .., by simpa using ha⟩
      · rename_i ha
        split at h
        · cases h
        · rename_i hv
          obtain ⟨⟨a', s2⟩, h1, h2⟩ := Res.bind_eq_ok.1 h
          cases h2
          have hname := (findLastAssignment_some hl).2
          have hmem := (findLastAssignment_some hl).1
          have ha : name ∉ s.assigned := by simpa using ha
          have hv : name ∉ s.visited := by simpa using hv
          have hi1 : DInv as { s with visited := name :: s.visited } :=
            ⟨hi.deps, hi.sub, fun n hn => by simp [hi.vis n hn], hi.out, hi.def_⟩
          have hd : s.deps a.name = dependencies a := by
            rw [hname, hi.deps name ha]
            simp [initState, hl]
          obtain ⟨m, add, f⟩ := followAssignment_ok ih hi1 hd h1
          have hnm : a'.name = name := f.marked.name.trans hname
          have same : s2.out = m.out ∧ s2.assigned = m.assigned ∧ s2.visited = m.visited := by
            rcases f.after with h | h <;> subst h <;> exact ⟨rfl, rfl, rfl⟩
          have hfresh : name ∉ add.map (·.name) := fun h => f.step.fresh name h (by simp)
          refine ⟨add ++ [a'], ⟨?_, ?_, ?_, ?_, ?_, ?_, ?_, ?_, ?_⟩, by simp⟩
          · dsimp only; rw [same.1, f.step.out, List.append_assoc]
          · intro n
            dsimp only
            rw [same.2.1, List.mem_cons, f.step.assigned, List.map_append, List.mem_append]
            simp only [List.map_cons, List.map_nil, List.mem_singleton, hnm]
            constructor
            · rintro (h | h | h)
              · exact .inr (.inr h)
              · exact .inl h
              · exact .inr (.inl h)
            · rintro (h | h | h)
              · exact .inr (.inl h)
              · exact .inr (.inr h)
              · exact .inl h
          · intro n
            dsimp only
            rw [same.2.2, f.step.visited, List.map_append, List.mem_append]
            simp only [List.map_cons, List.map_nil, hnm, List.mem_cons, List.not_mem_nil, or_false]
            constructor
            · rintro ((h | h) | h)
              · exact .inr (.inr h)
              · exact .inl h
              · exact .inr (.inl h)
            · rintro (h | h | h)
              · exact .inl (.inr h)
              · exact .inr h
              · exact .inl (.inl h)
          · intro n hn hnv
            rw [List.map_append, List.mem_append] at hn
            rcases hn with hn | hn
            · exact f.step.fresh n hn (by simp [hnv])
            · simp only [List.map_cons, List.map_nil, List.mem_singleton, hnm] at hn
              subst hn; exact hv hnv
          · rw [List.map_append, List.nodup_append]
            refine ⟨f.step.nodup, by simp, fun x hx y hy e => ?_⟩
            simp only [List.map_cons, List.map_nil, List.mem_singleton, hnm] at hy
            subst e; subst hy
            exact hfresh hx
          · intro n hn
            rw [List.map_append, List.mem_append, not_or] at hn
            simp only [List.map_cons, List.map_nil, List.mem_singleton, hnm] at hn
            have := f.step.deps n hn.1
            rcases f.after with h | h
            · subst h; exact this
            · subst h
              dsimp only [DepState.clear]
              rw [if_neg (by rw [hname]; simpa using hn.2)]
              exact this
          · intro n d hd'
            refine f.step.sub n d ?_
            rcases f.after with h | h
            · subst h; exact hd'
            · subst h
              dsimp only [DepState.clear] at hd'
              split at hd'
              · cases hd'
              · exact hd'
          · intro b hb
            rcases List.mem_append.1 hb with hb | hb
            · exact f.step.entries b hb
            · rw [List.mem_singleton] at hb
              subst hb
              exact ⟨a, by rw [hnm]; exact hl, f.marked, fun hs => f.refs (hs a hmem)⟩
          · intro hs pre b post e n hn
            rcases append_cons_split e with ⟨q, h3, _⟩ | ⟨p, h3, h4⟩
            · exact f.step.order hs pre b q h3 n hn
            · cases p with
              | nil =>
                simp only [List.nil_append, List.cons.injEq] at h4
                obtain ⟨rfl, _⟩ := h4
                rw [List.append_nil] at h3
                subst h3
                refine (f.step.assigned n).1 ?_
                rcases hn with hn | ⟨a0, h0, hn⟩
                · exact f.needs (hs a hmem) n hn
                · rw [hnm, hl] at h0; cases h0
                  exact f.hard (hs a hmem) n hn
              | cons x p => simp at h4

theorem initState_inv (as : List Assignment) : DInv as (initState as) :=
  ⟨fun _ _ => rfl, fun _ _ h => h, by simp [initState], by simp [initState], by simp [initState]⟩

/-- `reorderAssignments`, successful runs. -/
theorem reorderAssignments_ok {tree : Tree} {own : Name} {rf : Nat} {as out : List Assignment} 
    (h : reorderAssignments tree own rf as = .ok out) :
    (∀ n, n ∈ out.map (·.name) ↔ n ∈ as.map (·.name)) ∧ (out.map (·.name)).Nodup ∧ out.length = as.length ∧
    (NoInnerSetDefaults as → ∀ pre a' post, out = pre ++ a' :: post → ∀ n, Before as tree own a' n → ∃ b ∈ pre, b.name = n) ∧
    ∀ a' ∈ out, ∃ a, findLastAssignment as a'.name = some a ∧ Marked own as a a' ∧
      (NoInnerSetDefaults as → ∀ n, Refs tree own a.body n → (findLastAssignment as n).isSome = true) := by
  unfold reorderAssignments at h
  obtain ⟨s, h1, h2⟩ := Res.bind_eq_ok.1 h
  have hf : (as.map (·.name)).foldlM (fun s n => resolveDeps as tree own rf (as.length + 1) n s) (initState as) = .ok s := by
    rw [List.foldlM_map]; exact h1
  obtain ⟨add, k1, k2⟩ := followAll_ok (resolveDeps_ok (as.length + 1)) _ _ _ (initState_inv as) hf
  split at h2
  · cases h2
  · rename_i hlen
    cases h2
    have hlen : as.length = s.out.length := by simpa using hlen
    have hout : s.out = add := by rw [k1.out]; rfl
    have hin := k1.inv (initState_inv as)
    refine ⟨fun n => ⟨fun hn => ?_, fun hn => ?_⟩, by rw [hout]; exact k1.nodup, hlen.symm, ?_, ?_⟩
    · exact findLastAssignment_isSome.1 (hin.def_ n ((hin.out n).2 hn))
    · exact (hin.out n).1 (k2 n hn)
    · intro hs pre a post e n hn
      rw [hout] at e
      rcases k1.order hs pre a post e n hn with h | h
      · simp [initState] at h
      · obtain ⟨b, hb, hbn⟩ := List.mem_map.1 h
        exact ⟨b, hb, hbn⟩
    · rw [hout]; exact k1.entries

end FastBer.Ast
