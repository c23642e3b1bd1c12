import Verif.Proofs.SourceCheck
import Verif.Proofs.CheckCompile
import Verif.Spec.Accepted
/-!
# Checking that a source is accepted

`accepted fuel src` computes whether `Accepted src`; the answer `false` may be wrong.
-/
namespace FastBer.Ast.Check
open FastBer.Ast FastBer.Ast.Spec

/-! ## Cycles -/

/-- The length of the longest path from `n`, at most `f`. -/
def height (edges : List (Name × Name)) : Nat → Name → Nat
  | 0, _ => 0
  | f + 1, n => edges.foldl (fun k e => if e.1 == n then max k (height edges f e.2 + 1) else k) 0

/-- The heights decrease along the edges. -/
def acyclic (fuel : Nat) (edges : List (Name × Name)) : Bool :=
  edges.all fun e => height edges fuel e.2 < height edges fuel e.1

theorem acyclic_sound {fuel : Nat} {edges : List (Name × Name)} (h : acyclic fuel edges = true) {R : Name → Name → Prop}
    (hR : ∀ u v, R u v → (u, v) ∈ edges) : ¬ ∃ n, Relation.TransGen R n n := by
  rintro ⟨n, hn⟩
  have key : ∀ {a b}, Relation.TransGen R a b → height edges fuel b < height edges fuel a := by
    intro a b hab
    induction hab with
    | single h1 => simpa using List.all_eq_true.1 h _ (hR _ _ h1)
    | tail _ h1 ih =>
      exact Nat.lt_trans (by simpa using List.all_eq_true.1 h _ (hR _ _ h1)) ih
  exact absurd (key hn) (Nat.lt_irrefl _)

/-! ## What a type mentions -/

/-- The name after DEFAULT. -/
def defaultName (c : Comp) : List Name := match c.default with
  | some (.defined v) => match c.type with
    | .leaf .enumerated => []
    | _ => [v]
  | _ => []

theorem mem_defaultName {c : Comp} {v : Name} (h : c.default = some (.defined v)) (h' : c.type ≠ .leaf .enumerated) : v ∈ defaultName c := by
  unfold defaultName
  rw [h]
  dsimp only
  split
  · rename_i he
    exact absurd he h'
  · exact List.mem_cons_self

/-- The names mentioned by a type itself. -/
def namesOf (own : Name) : AType → List Name
  | .defined none n _ => [n]
  | .defined (some m) n _ => if m == own then [n] else []
  | .sequence cs _ => cs.flatMap defaultName
  | .set cs _ => cs.flatMap defaultName
  | _ => []

def mentioned (own : Name) (t : AType) : List Name := (parts t).flatMap (namesOf own)

theorem mentioned_sound {own : Name} {t : AType} {n : Name} (h : Uses own (fun _ => True) (fun t => t = .leaf .enumerated) t n) : n ∈ mentioned own t := by
  refine List.mem_flatMap.2 ?_
  have up : ∀ {t u}, u ∈ parts t → (∃ p ∈ parts u, n ∈ namesOf own p) → ∃ p ∈ parts t, n ∈ namesOf own p :=
    fun hu ⟨p, hp, hn⟩ => ⟨p, parts_trans _ _ _ hu hp, hn⟩
  induction h with
  | reference hm =>
    refine ⟨_, parts_self _, ?_⟩
    rcases hm with rfl | rfl <;> simp [namesOf]
  | choice _ ha _ ih => exact up (by rw [parts]; exact List.mem_cons_of_mem _ (mem_altParts ha (parts_self _))) (ih up)
  | sequence ha _ _ ih => exact up (by rw [parts]; exact List.mem_cons_of_mem _ (mem_compParts ha (parts_self _))) (ih up)
  | set ha _ _ ih => exact up (by rw [parts]; exact List.mem_cons_of_mem _ (mem_compParts ha (parts_self _))) (ih up)
  | sequenceDefault hc hd hi => exact ⟨_, parts_self _, List.mem_flatMap.2 ⟨_, hc, mem_defaultName hd hi⟩⟩
  | setDefault hc hd hi => exact ⟨_, parts_self _, List.mem_flatMap.2 ⟨_, hc, mem_defaultName hd hi⟩⟩
  | seqOf _ _ ih => exact up (by rw [parts]; exact List.mem_cons_of_mem _ (parts_self _)) (ih up)
  | setOf _ _ ih => exact up (by rw [parts]; exact List.mem_cons_of_mem _ (parts_self _)) (ih up)
  | prefixed _ ih => exact up (by rw [parts]; exact List.mem_cons_of_mem _ (parts_self _)) (ih up)

def mentionedBy (own : Name) : Body → List Name
  | .type t => mentioned own t
  | .value t (.defined n) => n :: mentioned own t
  | .value t _ => mentioned own t
  | _ => []

theorem mentionedBy_sound {own : Name} {b : Body} {n : Name} (h : Mentions own b n) : n ∈ mentionedBy own b := by
  cases h with
  | type h => exact mentioned_sound h
  | valueType h =>
    unfold mentionedBy
    split
    · rename_i he; cases he
    · rename_i he; cases he; exact List.mem_cons_of_mem _ (mentioned_sound h)
    · rename_i he; cases he; exact mentioned_sound h
    · rename_i h3; exact absurd rfl (h3 _ _)
  | value => exact List.mem_cons_self

/-- What a component requires. -/
def requiredByComp (own : Name) (c : Comp) : List Name :=
  (if c.optional && c.default.isNone then [] else mentioned own c.type) ++ defaultName c

/-- What an assignment requires. -/
def required (own : Name) (b : Body) : List Name := match components b with
  | some cs => cs.flatMap (requiredByComp own)
  | none => match b with
    | .type (.choice _ _) => []
    | .type (.setOf _ _ _) => []
    | .type (.seqOf _ _ _) => []
    | b => mentionedBy own b

def edges (own : Name) (as : List Assignment) : List (Name × Name) := as.flatMap fun a => (required own a.body).map fun v => (a.name, v)

theorem edges_sound {own : Name} {as : List Assignment} {u v : Name} (h : Requires own as u v) : (u, v) ∈ edges own as := by
  have mk : ∀ {a : Assignment} {v}, a ∈ as → v ∈ required own a.body → (a.name, v) ∈ edges own as :=
    fun ha hv => List.mem_flatMap.2 ⟨_, ha, List.mem_map.2 ⟨_, hv, rfl⟩⟩
  cases h with
  | component ha hc hm ho hu =>
    refine mk ha ?_
    unfold required
    rw [hc]
    refine List.mem_flatMap.2 ⟨_, hm, List.mem_append_left _ ?_⟩
    rw [if_neg (by rintro h; rcases ho with ho | ho <;> simp_all)]
    cases hu with
    | type h => exact mentioned_sound h
  | default ha hc hm hd he =>
    refine mk ha ?_
    unfold required
    rw [hc]
    exact List.mem_flatMap.2 ⟨_, hm, List.mem_append_right _ (mem_defaultName hd he)⟩
  | other ha hc hr hu =>
    refine mk ha ?_
    unfold required
    rw [hc]
    dsimp only
    split
    · rename_i hb; rw [hb] at hr; exact absurd trivial hr
    · rename_i hb; rw [hb] at hr; exact absurd trivial hr
    · rename_i hb; rw [hb] at hr; exact absurd trivial hr
    · exact mentionedBy_sound hu

/-! ## The conditions -/

/-- The references of a type are to the module's own types. -/
def localType (own : Name) (t : AType) : Bool := (parts t).all fun
  | .defined (some q) _ _ => q == own
  | _ => true

def acceptedType (mod : Module) : AType → Bool
  | .sequence cs _ => cs.all fun c => localType mod.name c.type
  | .set cs _ => cs.all fun c => localType mod.name c.type && match c.default with
      | some (.defined _) => false
      | _ => true
  | _ => true

def acceptedAssignment (src : Tree) (mod : Module) (a : Assignment) : Bool :=
  ((mentionedBy mod.name a.body).all fun n => (ownNames mod).contains n) && match a.body with
    | .value (.defined q ref _) _ => leads src (q.getD mod.name) ref
    | _ => true

/-- `Accepted`. -/
def accepted (fuel : Nat) (src : Tree) : Bool :=
  (src.modules.all fun m => (m.imports.all fun i => src.modules.any fun w => w.name == i.module) && decide (ownNames m).Nodup &&
    (m.assignments.all (acceptedAssignment src m)) && acyclic fuel (edges m.name m.assignments)) &&
  acyclic fuel (src.modules.flatMap fun m => m.imports.map fun i => (m.name, i.module)) && every src acceptedType

theorem localType_sound {own : Name} {t : AType} (h : localType own t = true) {q : Option Name} {n : Name} {ps : List AType}
    (hu : AType.defined q n ps ∈ parts t) : q = none ∨ q = some own := by
  have := List.all_eq_true.1 h _ hu
  cases q with
  | none => exact .inl rfl
  | some q => exact .inr (by simpa using this)

theorem accepted_sound {fuel : Nat} {src : Tree} (h : accepted fuel src = true) : Accepted src := by
  simp only [accepted, Bool.and_eq_true] at h
  obtain ⟨⟨h1, h2⟩, h3⟩ := h
  have hm : ∀ {m}, m ∈ src.modules → _ := fun {m} hm => List.all_eq_true.1 h1 m hm
  simp only [Bool.and_eq_true] at hm
  constructor
  · intro m hmm i hi
    obtain ⟨w, hw, he⟩ := List.any_eq_true.1 (List.all_eq_true.1 (hm hmm).1.1.1 i hi)
    exact ⟨w, hw, by simpa using he⟩
  · refine acyclic_sound h2 ?_
    rintro u v ⟨m, hmm, rfl, i, hi, rfl⟩
    exact List.mem_flatMap.2 ⟨m, hmm, List.mem_map.2 ⟨i, hi, rfl⟩⟩
  · exact fun m hmm => by simpa using (hm hmm).1.1.2
  · intro m hmm a ha n hn
    have := List.all_eq_true.1 (hm hmm).1.2 a ha
    simp only [acceptedAssignment, Bool.and_eq_true] at this
    simpa using List.all_eq_true.1 this.1 n (mentionedBy_sound hn)
  · intro m hmm a ha q ref ps v hb
    have := List.all_eq_true.1 (hm hmm).1.2 a ha
    simp only [acceptedAssignment, Bool.and_eq_true, hb] at this
    exact leads_sound this.2
  · intro m t cs e ho ht c hc q n ps hq
    have hin : AType.defined q n ps ∈ parts c.type := by
      rcases hq with hq | hq
      · rw [hq]; exact parts_self _
      · exact inside_parts hq
    have := every_sound h3 ho
    rcases ht with rfl | rfl
    · exact localType_sound (List.all_eq_true.1 this c hc) hin
    · have := List.all_eq_true.1 this c hc
      simp only [Bool.and_eq_true] at this
      exact localType_sound this.1 hin
  · rintro m t ho ⟨cs, e, rfl, c, hc, v, hv⟩
    have := List.all_eq_true.1 (every_sound h3 ho) c hc
    simp [hv] at this
  · exact fun m hmm => acyclic_sound (hm hmm).2 fun _ _ h => edges_sound h

end FastBer.Ast.Check
