import Verif.Proofs.CompilesModule
import Verif.Proofs.EmitOuter
/-!
# The names declared by the generated code are distinct
-/
namespace FastBer.Ast
open FastBer.Ast.Spec

/-- A name to which nothing has been appended. -/
def Unended (n : Name) : Prop := (∀ p, n ≠ p ++ "Contained") ∧ ∀ p, n ≠ p ++ "Values"

/-- `Contained`, `k` times. -/
def containeds : Nat → List Char
  | 0 => []
  | k + 1 => containeds k ++ "Contained".toList

def valuesIf (b : Bool) : List Char := if b then "Values".toList else []

theorem containeds_length : ∀ k, (containeds k).length = 9 * k
  | 0 => rfl
  | k + 1 => by rw [containeds, List.length_append, containeds_length k]; simp; omega

theorem containeds_add (k : Nat) : ∀ j, containeds (k + j) = containeds k ++ containeds j
  | 0 => by simp [containeds]
  | j + 1 => by rw [← Nat.add_assoc, containeds, containeds_add k j, containeds, List.append_assoc]

theorem ends_contained {x : List Char} {k : Nat} (h : x = containeds (k + 1)) : ∃ p : String, String.ofList x = p ++ "Contained" := by
  refine ⟨String.ofList (containeds k), ?_⟩
  rw [h, containeds, String.ofList_append]
  rfl

theorem ends_values {x y : List Char} (h : x = y ++ "Values".toList) : ∃ p : String, String.ofList x = p ++ "Values" := by
  refine ⟨String.ofList y, ?_⟩
  rw [h, String.ofList_append]
  rfl

/-- What is in front of an appended ending is empty or itself ends in one. -/
theorem tail_front {x : List Char} {k j : Nat} {b c : Bool} (h : x ++ (containeds j ++ valuesIf c) = containeds k ++ valuesIf b) :
    x = [] ∨ (∃ p : String, String.ofList x = p ++ "Contained") ∨ ∃ p : String, String.ofList x = p ++ "Values" := by
  have same : x ++ containeds j = containeds k → x = [] ∨ (∃ p : String, String.ofList x = p ++ "Contained") ∨ ∃ p : String, String.ofList x = p ++ "Values" := by
    intro h
    have hl := congrArg List.length h
    rw [List.length_append, containeds_length, containeds_length] at hl
    obtain ⟨d, rfl⟩ : ∃ d, k = d + j := ⟨k - j, by omega⟩
    rw [containeds_add] at h
    have := List.append_cancel_right h
    cases d with
    | zero => exact .inl this
    | succ d => exact .inr (.inl (ends_contained this))
  cases b with
  | false =>
    cases c with
    | false => exact same (by simpa [valuesIf] using h)
    | true =>
      exfalso
      cases k with
      | zero =>
        have := congrArg List.length h
        simp [valuesIf, containeds] at this
      | succ k =>
        have h1 := congrArg (fun l => l.getLast?) h
        simp [valuesIf, containeds] at h1
  | true =>
    cases c with
    | true =>
      rw [← List.append_assoc] at h
      exact same (List.append_cancel_right h)
    | false =>
      cases j with
      | zero =>
        refine .inr (.inr (ends_values (y := containeds k) ?_))
        simpa [containeds, valuesIf] using h
      | succ j =>
        exfalso
        have h1 := congrArg (fun l => l.getLast?) h
        simp [valuesIf, containeds] at h1

/-- `s` is something the compiler appends to a name. -/
def Tail (s : String) : Prop := ∃ k b, s.toList = containeds k ++ valuesIf b

theorem toList_inj {a b : String} (h : a.toList = b.toList) : a = b := by
  rw [← String.ofList_toList (s := a), h, String.ofList_toList]

theorem bare_split {n n' s s' : String} (hn : Unended n) (hn' : Unended n') (hs : Tail s) (hs' : Tail s') (h : n ++ s = n' ++ s') : n = n' ∧ s = s' := by
  have key : ∀ {n n' s s' : String} {x : List Char}, Unended n' → Tail s → Tail s' → n'.toList = n.toList ++ x → s.toList = x ++ s'.toList → n = n' ∧ s = s' := by
    intro n n' s s' x hb hs hs' h1 h2
    obtain ⟨k, b, hk⟩ := hs
    obtain ⟨j, c, hj⟩ := hs'
    have h3 := h2
    rw [hk, hj] at h3
    have front : ∀ {e p : String}, String.ofList x = p ++ e → n' = (n ++ p) ++ e := by
      intro e p hx
      apply toList_inj
      have hx' : x = p.toList ++ e.toList := by rw [← String.toList_append, ← hx, String.toList_ofList]
      rw [h1, hx', String.toList_append, String.toList_append, List.append_assoc]
    rcases tail_front h3.symm with rfl | ⟨p, hx⟩ | ⟨p, hx⟩
    · exact ⟨toList_inj (by simpa using h1.symm), toList_inj (by simpa using h2)⟩
    · exact absurd (front hx) (hb.1 _)
    · exact absurd (front hx) (hb.2 _)
  have h' : n.toList ++ s.toList = n'.toList ++ s'.toList := by rw [← String.toList_append, h, String.toList_append]
  rcases List.append_eq_append_iff.1 h' with ⟨x, h1, h2⟩ | ⟨x, h1, h2⟩
  · exact key hn' hs hs' h1 h2
  · obtain ⟨h3, h4⟩ := key hn hs' hs h1 h2
    exact ⟨h3.symm, h4.symm⟩

theorem tail_empty : Tail "" := ⟨0, false, rfl⟩
theorem tail_values : Tail "Values" := ⟨0, true, rfl⟩
theorem tail_contained {s : String} (h : Tail s) : Tail ("Contained" ++ s) := by
  obtain ⟨k, b, h⟩ := h
  refine ⟨1 + k, b, ?_⟩
  rw [containeds_add, String.toList_append, h, ← List.append_assoc]
  rfl

theorem tail_append_ne {s : String} (h : Tail s) (n : Name) : n ≠ n ++ ("Contained" ++ s) := by
  intro he
  have := congrArg (fun x => x.toList.length) he
  simp only [String.toList_append, List.length_append] at this
  have h9 : "Contained".toList.length = 9 := rfl
  omega

/-- No ENUMERATED of another module is referred to. -/
def LocalEnums (tree : Tree) (mod : Module) : Prop := ∀ q ref ps wm, Occurs tree mod (.defined q ref ps) → target tree mod q ref = some (wm, .leaf .enumerated) → wm.name = mod.name

theorem nodup_one {α : Type} (a : α) : [a].Nodup := List.nodup_cons.2 ⟨by simp, List.nodup_nil⟩

theorem declares_tails_enum {tree : Tree} {mod : Module} (n : Name) :
    (declares tree mod (.leaf .enumerated) n).Nodup ∧ ∀ d ∈ declares tree mod (.leaf .enumerated) n, ∃ s, Tail s ∧ d = n ++ s := by
  rw [declares]
  refine ⟨?_, fun d hd => ?_⟩
  · refine List.nodup_cons.2 ⟨?_, nodup_one _⟩
    rw [List.mem_singleton]
    intro he
    have := congrArg (fun x => x.toList.length) he
    simp at this
  · simp only [List.mem_cons, List.not_mem_nil, or_false] at hd
    rcases hd with rfl | rfl
    · exact ⟨_, tail_values, rfl⟩
    · exact ⟨_, tail_empty, by simp⟩

/-- Every name declared is the name with something appended; all are different. -/
theorem declares_tails {tree : Tree} {mod : Module} (hl : LocalEnums tree mod) : ∀ (t : AType) (n : Name), Occurs tree mod t →
    (declares tree mod t n).Nodup ∧ ∀ d ∈ declares tree mod t n, ∃ s, Tail s ∧ d = n ++ s
  | .seqOf m t s, n, h => by
    rw [declares]
    obtain ⟨h1, h2⟩ := declares_tails hl t (n ++ "Contained") (.seqOf h)
    refine ⟨List.nodup_append.2 ⟨h1, nodup_one _, fun a ha b hb he => ?_⟩, fun d hd => ?_⟩
    · rw [List.mem_singleton] at hb
      obtain ⟨s, hs, rfl⟩ := h2 a ha
      exact tail_append_ne hs n (by rw [← String.append_assoc, he, hb])
    · rcases List.mem_append.1 hd with hd | hd
      · obtain ⟨s, hs, rfl⟩ := h2 d hd
        exact ⟨_, tail_contained hs, by rw [String.append_assoc]⟩
      · rw [List.mem_singleton] at hd
        exact ⟨_, tail_empty, by simp [hd]⟩
  | .setOf m t s, n, h => by
    rw [declares]
    obtain ⟨h1, h2⟩ := declares_tails hl t (n ++ "Contained") (.setOf h)
    refine ⟨List.nodup_append.2 ⟨h1, nodup_one _, fun a ha b hb he => ?_⟩, fun d hd => ?_⟩
    · rw [List.mem_singleton] at hb
      obtain ⟨s, hs, rfl⟩ := h2 a ha
      exact tail_append_ne hs n (by rw [← String.append_assoc, he, hb])
    · rcases List.mem_append.1 hd with hd | hd
      · obtain ⟨s, hs, rfl⟩ := h2 d hd
        exact ⟨_, tail_contained hs, by rw [String.append_assoc]⟩
      · rw [List.mem_singleton] at hd
        exact ⟨_, tail_empty, by simp [hd]⟩
  | .prefixed c i k t, n, h => by
    rw [declares]
    exact declares_tails hl t n (.prefixed h)
  | .defined m ref ps, n, h => by
    have one : declares tree mod (.defined m ref ps) n = [n] := by
      rw [declares]
      split
      · rename_i wm ht
        rw [if_pos (hl _ _ _ _ h ht)]
      · rfl
    rw [one]
    exact ⟨nodup_one _, fun d hd => ⟨_, tail_empty, by simp [List.mem_singleton.1 hd]⟩⟩
  | .leaf b, n, h => by
    by_cases hb : b = .enumerated
    · subst hb
      exact declares_tails_enum n
    · have one : declares tree mod (.leaf b) n = [n] := by
        cases b <;> first | rfl | exact absurd rfl hb
      rw [one]
      exact ⟨nodup_one _, fun d hd => ⟨_, tail_empty, by simp [List.mem_singleton.1 hd]⟩⟩
  | .objField m c fs, n, h => ⟨nodup_one _, fun d hd => ⟨_, tail_empty, by simp [List.mem_singleton.1 hd]⟩⟩
  | .choice as s, n, h => ⟨nodup_one _, fun d hd => ⟨_, tail_empty, by simp [List.mem_singleton.1 hd]⟩⟩
  | .sequence cs e, n, h => ⟨nodup_one _, fun d hd => ⟨_, tail_empty, by simp [List.mem_singleton.1 hd]⟩⟩
  | .set cs e, n, h => ⟨nodup_one _, fun d hd => ⟨_, tail_empty, by simp [List.mem_singleton.1 hd]⟩⟩

/-- The names declared by types with different names. -/
theorem flatMap_declares {α : Type} {tree : Tree} {mod : Module} (hl : LocalEnums tree mod) (name : α → Name) (type : α → AType) : ∀ (l : List α),
    (l.map name).Nodup → (∀ a ∈ l, Unended (name a)) → (∀ a ∈ l, Occurs tree mod (type a)) → (l.flatMap fun a => declares tree mod (type a) (name a)).Nodup
  | [], _, _, _ => List.nodup_nil
  | a :: l, hn, hb, ho => by
    rw [List.flatMap_cons]
    obtain ⟨h1, h2⟩ := List.nodup_cons.1 hn
    obtain ⟨h3, h4⟩ := declares_tails hl (type a) (name a) (ho a List.mem_cons_self)
    refine List.nodup_append.2 ⟨h3, flatMap_declares hl name type l h2 (fun b hb' => hb b (List.mem_cons_of_mem _ hb')) (fun b hb' => ho b (List.mem_cons_of_mem _ hb')), ?_⟩
    rintro d hd d' hd' rfl
    obtain ⟨b, hbl, hd'⟩ := List.mem_flatMap.1 hd'
    obtain ⟨s, hs, e1⟩ := h4 d hd
    obtain ⟨s', hs', e2⟩ := (declares_tails hl (type b) (name b) (ho b (List.mem_cons_of_mem _ hbl))).2 d hd'
    obtain ⟨e3, -⟩ := bare_split (hb a List.mem_cons_self) (hb b (List.mem_cons_of_mem _ hbl)) hs hs' (e1.symm.trans e2)
    exact h1 (e3 ▸ List.mem_map_of_mem hbl)

/-- A name with nothing appended that is none of the names is not declared. -/
theorem not_declared {α : Type} {tree : Tree} {mod : Module} (hl : LocalEnums tree mod) (name : α → Name) (type : α → AType) {l : List α} {n : Name} (hn : Unended n)
    (hb : ∀ a ∈ l, Unended (name a)) (ho : ∀ a ∈ l, Occurs tree mod (type a)) (hne : ∀ a ∈ l, name a ≠ n) : n ∉ l.flatMap fun a => declares tree mod (type a) (name a) := by
  intro h
  obtain ⟨a, ha, hd⟩ := List.mem_flatMap.1 h
  obtain ⟨s, hs, e⟩ := (declares_tails hl (type a) (name a) (ho a ha)).2 n hd
  obtain ⟨e', -⟩ := bare_split hn (hb a ha) tail_empty hs (by rw [← e]; simp)
  exact hne a ha e'.symm

end FastBer.Ast
