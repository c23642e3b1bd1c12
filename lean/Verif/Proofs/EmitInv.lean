import Verif.Proofs.EmitRefs
/-!
# What is declared in the namespaces, and what references find there
-/
namespace FastBer.Ast
open Spec

/-- The name of the element type, `k` levels down. -/
def contained : Nat → Name → Name
  | 0, n => n
  | k + 1, n => contained k n ++ "Contained"

theorem contained_succ (n : Name) : ∀ k, contained k (n ++ "Contained") = contained (k + 1) n
  | 0 => rfl
  | k + 1 => by rw [contained, contained_succ n k]; rfl

theorem values_ne (a b : Name) : a ++ "Values" ≠ b ++ "Contained" := by
  intro h
  have := congrArg (fun s => s.toList.getLast?) h
  simp [String.toList_append] at this

theorem underscore_ne (a b : Name) : a ++ "_" ≠ b ++ "Contained" := by
  intro h
  have := congrArg (fun s => s.toList.getLast?) h
  simp [String.toList_append] at this

/-- The element type, `k` levels down. -/
def elemAt : Nat → AType → Option AType
  | 0, t => some t
  | k + 1, t =>
    match untag t with
    | .seqOf _ u _ => elemAt k u
    | .setOf _ u _ => elemAt k u
    | _ => none

theorem elemAt_untag (k : Nat) (t : AType) : elemAt (k + 1) (untag t) = elemAt (k + 1) t := by
  have : untag (untag t) = untag t := by
    match t with
    | .prefixed c n k t =>
      have : ∀ t, untag (untag t) = untag t := by
        intro t
        induction t using untag.induct with
        | case1 _ _ _ t ih => exact ih
        | case2 t h => cases t <;> first | rfl | (exact absurd rfl (h _ _ _ _))
      exact this _
    | .defined _ _ _ => rfl
    | .leaf _ => rfl
    | .choice _ _ => rfl
    | .sequence _ _ => rfl
    | .set _ _ => rfl
    | .seqOf _ _ _ => rfl
    | .setOf _ _ _ => rfl
    | .objField _ _ _ => rfl
  simp only [elemAt, this]

theorem elemAt_list {k : Nat} {t u : AType} (h : elemAt (k + 1) t = some u) : isList (untag t) = true := by
  simp only [elemAt] at h
  split at h
  · rename_i h'; rw [h']; rfl
  · rename_i h'; rw [h']; rfl
  · cases h

/-- What a declared type is. -/
def Entry (lib : Lib) (tree : Tree) (mod : Module) (t : AType) (T : Ty) : Prop :=
  T.Body noHoles lib tree mod t ∧ (¬ Lost tree mod t → T.Head tree mod t)

/-- Every type declared in a namespace is that of an assignment, or of its elements. -/
def Inv (lib : Lib) (tree : Tree) (spaces : List ((Name × Name) × Ent)) : Prop :=
  ∀ m n T, ((m, n), Ent.type T) ∈ spaces → ∃ wm a t k u, wm ∈ tree.modules ∧ wm.name = m ∧ a ∈ wm.assignments ∧ a.body = .type t ∧
    n = contained k a.name ∧ elemAt k t = some u ∧ Entry lib tree wm u T

theorem pairwise_unique {α : Type} {f : α → Name} {l : List α} (h : l.Pairwise fun a b => f a ≠ f b) {a b : α} (ha : a ∈ l) (hb : b ∈ l)
    (he : f a = f b) : a = b := by
  induction h with
  | nil => cases ha
  | @cons x l hx _ ih =>
    rcases List.mem_cons.1 ha with h1 | h1 <;> rcases List.mem_cons.1 hb with h2 | h2
    · rw [h1, h2]
    · rw [h1] at he; exact absurd he (hx _ h2)
    · rw [h2] at he; exact absurd he.symm (hx _ h1)
    · exact ih h1 h2

/-- A reference to a type of a namespace. -/
theorem Inv.ref {lib : Lib} {tree : Tree} (hS : Supported tree) {spaces : List ((Name × Name) × Ent)} (hI : Inv lib tree spaces)
    {md wm : Module} {m : Option Name} {ref : Name} {t : AType} (ht : target tree md m ref = some (wm, t)) {T : Ty}
    (hl : spaces.lookup (m.getD md.name, ref) = some (.type T)) : Entry lib tree wm t T := by
  obtain ⟨hw, hn, a, ha, han, hab⟩ := target_mem ht
  obtain ⟨wm', a', t', k, u, hw', hn', ha', hab', hc, hu, he⟩ := hI _ _ _ (lookup_mem hl)
  have h1 : wm' = wm := pairwise_unique hS.modules hw' hw (by rw [hn', hn])
  subst h1
  cases k with
  | zero =>
    have h2 : a' = a := pairwise_unique (hS.assignments _ hw) ha' ha (by rw [han, hc]; rfl)
    subst h2
    rw [hab] at hab'
    cases hab'
    cases hu
    exact he
  | succ k => exact absurd (by rw [han, hc]; rfl) ((hS.typeNames _ hw _ ha).2 (contained k a'.name))

/-- The element type of a reference to a SEQUENCE OF. -/
theorem Inv.element {lib : Lib} {tree : Tree} (hS : Supported tree) {spaces : List ((Name × Name) × Ent)} (hI : Inv lib tree spaces)
    {wm : Module} (hw : wm ∈ tree.modules) {a : Assignment} (ha : a ∈ wm.assignments) {t : AType} (hb : a.body = .type t) {T : Ty}
    (hl : spaces.lookup (wm.name, a.name ++ "Contained") = some (.type T)) : ∃ u, elemAt 1 t = some u ∧ Entry lib tree wm u T := by
  obtain ⟨wm', a', t', k, u, hw', hn', ha', hab', hc, hu, he⟩ := hI _ _ _ (lookup_mem hl)
  have h1 : wm' = wm := pairwise_unique hS.modules hw' hw hn'
  subst h1
  cases k with
  | zero => exact absurd hc.symm ((hS.typeNames _ hw _ ha').2 a.name)
  | succ k =>
    have hc' : a.name = contained k a'.name := (String.append_left_inj _).1 hc
    cases k with
    | zero =>
      have h2 : a = a' := pairwise_unique (hS.assignments _ hw) ha ha' hc'
      subst h2
      rw [hb] at hab'
      cases hab'
      exact ⟨u, hu, he⟩
    | succ k => exact absurd hc' ((hS.typeNames _ hw _ ha).2 _)

/-- No scope declares a name a reference to an element type could be taken for. -/
def ScopesOk (mod : Module) (scopes : List (List (Name × Ent))) : Prop :=
  ∀ s ∈ scopes, ∀ p ∈ s, p.1 ≠ "Contained" ∧ ∀ a ∈ mod.assignments, p.1 ≠ a.name ++ "Contained"

theorem ScopesOk.none {mod : Module} {scopes : List (List (Name × Ent))} (h : ScopesOk mod scopes) {a : Assignment} (ha : a ∈ mod.assignments) :
    ∀ s ∈ scopes, s.lookup (a.name ++ "Contained") = none := by
  intro s hs
  rw [lookup_none_iff]
  intro b hb
  exact (h s hs _ hb).2 a ha rfl

/-- The scopes never declare `Contained`, nor do the namespaces. -/
theorem Inv.contained_none {lib : Lib} {tree : Tree} (hS : Supported tree) {spaces : List ((Name × Name) × Ent)} (hI : Inv lib tree spaces)
    {m : Name} {T : Ty} : spaces.lookup (m, "Contained") ≠ some (.type T) := by
  intro hl
  obtain ⟨wm, a, t, k, u, hw, _, ha, _, hc, _, _⟩ := hI _ _ _ (lookup_mem hl)
  have hn := hS.typeNames _ hw _ ha
  have h0 : ("" : Name) ++ "Contained" = "Contained" := by decide
  cases k with
  | zero => exact hn.2 "" (by rw [h0]; exact hc.symm)
  | succ k =>
    have h1 : ("" : Name) = contained k a.name := (String.append_left_inj "Contained").1 (by rw [h0]; exact hc)
    cases k with
    | zero => exact hn.1 h1.symm
    | succ k =>
      have := congrArg (fun s => s.toList.length) h1
      simp [contained, String.toList_append] at this

end FastBer.Ast
