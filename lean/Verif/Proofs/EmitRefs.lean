import Verif.Proofs.EmitOuter
import Verif.Proofs.Resolve
/-!
# What the compiler writes for a reference
-/
namespace FastBer.Ast
open Spec

theorem resolveDefined_standsFor_emit {tree : Tree} {cur mod ref : Name} (hr : RefOk tree cur mod ref) : ∀ {fuel : Nat} {module : Name}
    {m : Option Name} {r : Resolved}, m.getD module = mod → resolveDefined tree cur fuel module m ref = .ok r →
    StandsFor tree mod ref r.name r.type r.module.name := by
  induction hr with
  | @here mod ref t hl hn =>
    intro fuel module m r hm h
    subst hm
    cases fuel with
    | zero => rw [resolveDefined] at h; cases h
    | succ fuel =>
      rcases resolveDefined_step tree cur fuel module m ref with ⟨e, he, _⟩ | ⟨m', r', ps, hl', he⟩ |
        ⟨c, n, k, m', r', ps, hl', he⟩ | ⟨t', wm, hl', hn', he, hwn⟩
      · rw [he] at h; cases h
      · rw [hl] at hl'; cases hl'; exact absurd (.direct _ _ _) (hn _ _)
      · rw [hl] at hl'; cases hl'; exact absurd (.tagged _ _ _ _ _ _) (hn _ _)
      · rw [he] at h; cases h; rw [hl] at hl'; cases hl'; simp only [hwn]; exact .here hl hn
  | @alias mod ref m1 r1 ps hl _ ih =>
    intro fuel module m r hm h
    subst hm
    cases fuel with
    | zero => rw [resolveDefined] at h; cases h
    | succ fuel =>
      rcases resolveDefined_step tree cur fuel module m ref with ⟨e, he, _⟩ | ⟨m', r', ps, hl', he⟩ |
        ⟨c, n, k, m', r', ps, hl', he⟩ | ⟨t', wm, hl', hn', he, hwn⟩
      · rw [he] at h; cases h
      · rw [hl] at hl'; cases hl'; rw [he] at h; exact .alias hl (ih rfl h)
      · rw [hl] at hl'; cases hl'
      · rw [hl] at hl'; cases hl'; exact absurd (.direct _ _ _) (hn' _ _)
  | @tagged mod ref c k tm m1 r1 ps hl hg _ ih =>
    intro fuel module m r hm h
    subst hm
    cases fuel with
    | zero => rw [resolveDefined] at h; cases h
    | succ fuel =>
      rcases resolveDefined_step tree cur fuel module m ref with ⟨e, he, _⟩ | ⟨m', r', ps, hl', he⟩ |
        ⟨c, n, k, m', r', ps, hl', he⟩ | ⟨t', wm, hl', hn', he, hwn⟩
      · rw [he] at h; cases h
      · rw [hl] at hl'; cases hl'
      · rw [hl] at hl'; cases hl'
        rw [he] at h
        obtain ⟨x, hx, h⟩ := Res.bind_eq_ok.1 h
        cases h
        exact .tagged hl (ih hg hx)
      · rw [hl] at hl'; cases hl'; exact absurd (.tagged _ _ _ _ _ _) (hn' _ _)

theorem lookup_target {tree : Tree} {md : Module} {m : Option Name} {ref : Name} {t : AType} {M : Name} (hm : m.getD md.name = M)
    (h : lookup tree M ref = some (.type t)) : ∃ wm, target tree md m ref = some (wm, t) ∧ wm.name = M := by
  obtain ⟨wm, a, h1, h2, h3⟩ := lookup_some.1 h
  refine ⟨wm, ?_, (findModule_ok h1).2.1⟩
  rw [← followRef_ok, followRef, hm, h1, Res.ok_bind, h2, Res.ok_bind, h3]

theorem core_untag {tree : Tree} {mod : Module} : ∀ (t : AType), (∀ m ref ps, untag t ≠ .defined m ref ps) → Core tree mod t mod (untag t)
  | .prefixed c n k t, h => .prefixed (core_untag t h)
  | .defined m ref ps, h => absurd rfl (h m ref ps)
  | .leaf _, _ => .here rfl
  | .choice _ _, _ => .here rfl
  | .sequence _ _, _ => .here rfl
  | .set _ _, _ => .here rfl
  | .seqOf _ _ _, _ => .here rfl
  | .setOf _ _ _, _ => .here rfl
  | .objField _ _ _, _ => .here rfl

/-- What a reference stands for has no reference under its tags, if there is at most one tag in front of a reference. -/
theorem standsFor_untag {tree : Tree} (hS : Supported tree) {mod ref n mod' : Name} {t : AType} (h : StandsFor tree mod ref n t mod') :
    ∀ m r ps, untag t ≠ .defined m r ps := by
  induction h with
  | @here mod ref t hl hn =>
    intro m r ps hu
    obtain ⟨wm, a, h1, h2, h3⟩ := lookup_some.1 hl
    have hoc : Occurs tree wm t := .assigned (findModule_ok h1).2.2 (findAssignment_ok h2).2.2 h3
    cases t with
    | defined m' r' ps' => exact hn _ _ (.direct _ _ _)
    | prefixed c n k t =>
      cases t with
      | defined m' r' ps' => exact hn _ _ (.tagged _ _ _ _ _ _)
      | prefixed c' n' k' t => exact hS.twice _ _ _ _ _ _ _ _ hoc _ _ _ hu
      | _ => cases hu
    | _ => cases hu
  | alias _ _ ih => exact ih
  | tagged _ _ ih => exact ih

/-- The core of a reference is that of what it stands for. -/
theorem standsFor_core {tree : Tree} {mod ref n mod' : Name} {t : AType} (h : StandsFor tree mod ref n t mod')
    (hu : ∀ m r ps, untag t ≠ .defined m r ps) : ∀ (md : Module) (m : Option Name) (ps : List AType), m.getD md.name = mod →
    ∃ wm, wm.name = mod' ∧ Core tree md (.defined m ref ps) wm (untag t) := by
  induction h with
  | @here mod ref t hl hn =>
    intro md m ps hm
    obtain ⟨wm, ht, hw⟩ := lookup_target hm hl
    exact ⟨wm, hw, .reference ht (core_untag t hu)⟩
  | @alias mod ref m1 r1 ps1 n mod' t hl _ ih =>
    intro md m ps hm
    obtain ⟨wm, ht, hw⟩ := lookup_target hm hl
    obtain ⟨w, h1, h2⟩ := ih hu wm m1 ps1 (by rw [hw])
    exact ⟨w, h1, .reference ht h2⟩
  | @tagged mod ref c k tm m1 r1 ps1 n mod' t hl _ ih =>
    intro md m ps hm
    obtain ⟨wm, ht, hw⟩ := lookup_target hm hl
    obtain ⟨w, h1, h2⟩ := ih hu wm m1 ps1 (by rw [hw])
    exact ⟨w, h1, .reference ht (.prefixed h2)⟩

/-- What the compiler finds for a reference. -/
theorem resolveDefined_core {tree : Tree} (hS : Supported tree) {mod : Module} {m : Option Name} {ref : Name} {ps : List AType}
    (hoc : Occurs tree mod (.defined m ref ps)) {fuel : Nat} {r : Resolved}
    (h : resolveDefined tree mod.name fuel mod.name m ref = .ok r) :
    StandsFor tree (m.getD mod.name) ref r.name r.type r.module.name ∧ (∀ m r' ps, untag r.type ≠ .defined m r' ps) ∧
      ∃ wm, Core tree mod (.defined m ref ps) wm (untag r.type) := by
  have hs := resolveDefined_standsFor_emit (hS.references _ _ _ _ hoc) rfl h
  have hu := standsFor_untag hS hs
  obtain ⟨wm, _, hc⟩ := standsFor_core hs hu mod m ps rfl
  exact ⟨hs, hu, wm, hc⟩

theorem isGenerated_untag : ∀ t : AType, t.isGenerated = isStruct (untag t)
  | .prefixed c n k t => by rw [AType.isGenerated, isGenerated_untag t]; rfl
  | .defined _ _ _ => rfl
  | .leaf _ => rfl
  | .choice _ _ => rfl
  | .sequence _ _ => rfl
  | .set _ _ => rfl
  | .seqOf _ _ _ => rfl
  | .setOf _ _ _ => rfl
  | .objField _ _ _ => rfl

/-- The result of `type_as_string` for a type without references. -/
theorem typeAsString_untag {tree : Tree} {mod : Module} {id : CId} : ∀ {f : Nat} {name : Name} {t : AType} {c : CppTy},
    (∀ m r ps, untag t ≠ .defined m r ps) → isStruct (untag t) = false → typeAsString tree mod f name id t = .ok c →
    (∃ k, untag t = .leaf k ∧ k ≠ .enumerated ∧ c = .lib k id) ∨ (∃ v, untag t = .leaf .enumerated ∧ c = .enumerated v id) ∨
    (isList (untag t) = true ∧ c = .seqOf ((if hasTag t then "" else name) ++ "Contained") id)
  | 0, _, _, _, _, _, h => by rw [typeAsString] at h; cases h
  | f + 1, name, t, c, hu, hs, h => by
    cases t with
    | leaf k =>
      by_cases hk : k = .enumerated
      · subst hk
        rw [typeAsString] at h
        cases h
        exact .inr (.inl ⟨_, rfl, rfl⟩)
      · rw [typeAsString] at h
        · cases h; exact .inl ⟨k, rfl, hk, rfl⟩
        · exact hk
    | choice _ _ => cases hs
    | sequence _ _ => cases hs
    | set _ _ => cases hs
    | seqOf _ _ _ => rw [typeAsString] at h; cases h; exact .inr (.inr ⟨rfl, rfl⟩)
    | setOf _ _ _ => rw [typeAsString] at h; cases h; exact .inr (.inr ⟨rfl, rfl⟩)
    | prefixed c' n k t' =>
      rw [typeAsString] at h
      obtain ⟨_, _, h⟩ := Res.bind_eq_ok.1 h
      rcases typeAsString_untag (t := t') hu hs h with h1 | h1 | ⟨h1, h2⟩
      · exact .inl h1
      · exact .inr (.inl h1)
      · exact .inr (.inr ⟨h1, by rw [h2]; cases hasTag t' <;> rfl⟩)
    | objField _ _ _ => rw [typeAsString] at h; cases h
    | defined m ref ps => exact absurd rfl (hu m ref ps)

end FastBer.Ast
