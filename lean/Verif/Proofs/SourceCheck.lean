import Verif.Spec.Source
import Verif.Proofs.Check
/-!
# Checking a source

`plainSource src` computes whether `PlainSource src`; the answer `false` may be wrong for schemas with names that begin with `Unnamed`.
-/
namespace FastBer.Ast.Check
open FastBer.Ast FastBer.Ast.Spec

/-- The name does not begin like a made up one. -/
def named (n : Name) : Bool := !("Unnamed".toList.isPrefixOf n.toList)

theorem named_sound {n : Name} (h : named n = true) : ¬ MadeUp n := by
  have key : ∀ p : String, "Unnamed".toList.isPrefixOf p.toList = true → ∀ k : Nat, n ≠ p ++ toString k := by
    rintro p hp k rfl
    unfold named at h
    rw [String.toList_append] at h
    have : "Unnamed".toList.isPrefixOf (p.toList ++ (toString k).toList) = true :=
      List.isPrefixOf_iff_prefix.2 ((List.isPrefixOf_iff_prefix.1 hp).trans (List.prefix_append _ _))
    rw [this] at h
    cases h
  rintro ⟨k, h | h | h | h⟩
  · exact key "UnnamedSet" (by decide) k h
  · exact key "UnnamedSequence" (by decide) k h
  · exact key "UnnamedEnum" (by decide) k h
  · exact key "UnnamedChoice" (by decide) k h

def leads (src : Tree) (mod ref : Name) : Bool :=
  src.modules.any fun m => m.name == origin src mod ref && m.assignments.any fun a => a.name == ref && match a.body with
    | .type _ => true
    | _ => false

theorem leads_sound {src : Tree} {mod ref : Name} (h : leads src mod ref = true) : Leads src mod ref := by
  obtain ⟨m, hm, h⟩ := List.any_eq_true.1 h
  obtain ⟨h1, h⟩ := Bool.and_eq_true .. ▸ h
  obtain ⟨a, ha, h⟩ := List.any_eq_true.1 h
  obtain ⟨h2, h⟩ := Bool.and_eq_true .. ▸ h
  refine ⟨m, hm, by simpa using h1, a, ha, by simpa using h2, ?_⟩
  split at h
  · rename_i t ht
    exact ⟨t, ht⟩
  · cases h

/-- The conditions on one type. -/
def plainType (src : Tree) (m : Module) : AType → Bool
  | .defined q ref ps => ps.isEmpty && leads src (q.getD m.name) ref
  | .objField _ _ _ => false
  | .sequence cs _ => cs.all fun c => c.componentsOf.isNone
  | .set cs _ => cs.all fun c => c.componentsOf.isNone
  | _ => true

def plainSource (src : Tree) : Bool :=
  pairwise (fun a b => a.name != b.name) src.modules &&
  (src.modules.all fun m => (m.assignments.all fun a => a.params.isEmpty && named a.name && match a.body with
      | .objectClass _ => false
      | _ => true) &&
    m.imports.all fun i => i.types.all fun n => named n && leads src i.module n) &&
  every src (plainType src)

theorem plainSource_sound {src : Tree} (h : plainSource src = true) : PlainSource src := by
  unfold plainSource at h
  simp only [Bool.and_eq_true, List.all_eq_true] at h
  obtain ⟨⟨h1, h2⟩, h3⟩ := h
  have ht : ∀ {m : Module} {t : AType}, Occurs src m t → plainType src m t = true := fun ho => every_sound h3 ho
  refine ⟨?_, ?_, ?_, ?_, ?_, ?_, ?_, ?_, ?_, ?_⟩
  · exact (pairwise_sound h1).imp fun h => by simpa using h
  · intro m hm a ha
    simpa using (((h2 m hm).1 a ha).1).1
  · intro m q ref ps ho
    have := ht ho
    simp only [plainType, Bool.and_eq_true] at this
    simpa using this.1
  · rintro m t ho ⟨cs, e, h, c, hc, hn⟩
    have := ht ho
    rcases h with rfl | rfl
    · simp only [plainType, List.all_eq_true] at this
      exact hn (by simpa using this c hc)
    · simp only [plainType, List.all_eq_true] at this
      exact hn (by simpa using this c hc)
  · intro m hm a ha fs hb
    have := ((h2 m hm).1 a ha).2
    rw [hb] at this
    cases this
  · intro m q c fs ho
    have := ht ho
    cases this
  · intro m hm a ha
    exact named_sound (((h2 m hm).1 a ha).1).2
  · intro m hm i hi n hn
    exact named_sound ((h2 m hm).2 i hi n hn).1
  · intro m q ref ps ho
    have := ht ho
    simp only [plainType, Bool.and_eq_true] at this
    exact leads_sound this.2
  · intro m hm i hi n hn
    exact leads_sound ((h2 m hm).2 i hi n hn).2

end FastBer.Ast.Check
