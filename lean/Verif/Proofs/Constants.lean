import Verif.Model.Constants
import Verif.Proofs.Resolve
import Verif.Proofs.Names
/-! # Constants -/
namespace FastBer.Constants
open FastBer Ast Ast.Spec Constants.Spec

theorem simple_unique {tree : Tree} {name mod : Name} {t : AType} {k k' : Builtin} {n n' : Name} (h : Simple tree name mod t k n) (h' : Simple tree name mod t k' n') :
    k = k' ∧ n = n' := by
  induction h with
  | here => cases h'; exact ⟨rfl, rfl⟩
  | reference hl _ ih =>
    cases h' with
    | reference hl' h2 =>
      rw [hl] at hl'
      cases hl'
      exact ih h2

/-- The kind does not depend on the name the type has. -/
theorem simple_any {tree : Tree} {name mod : Name} {t : AType} {k : Builtin} {n : Name} (h : Simple tree name mod t k n) (name' : Name) : ∃ n', Simple tree name' mod t k n' := by
  cases h with
  | here => exact ⟨_, .here⟩
  | reference hl h => exact ⟨_, .reference hl h⟩

theorem simple_resolve {tree : Tree} {name mod : Name} {t : AType} {k : Builtin} {n : Name} (h : Simple tree name mod t k n) :
    (t = .leaf k ∧ n = name) ∨ ∃ m ref ps, t = .defined m ref ps ∧ ∃ f0, ∀ f, f0 ≤ f → ∀ cur, ∃ wm, resolveDefined tree cur f mod m ref = .ok ⟨n, .leaf k, wm⟩ := by
  induction h with
  | here => exact .inl ⟨rfl, rfl⟩
  | @reference name mod m ref ps t k n hl h ih =>
    refine .inr ⟨m, ref, ps, rfl, ?_⟩
    obtain ⟨wm, a, h1, h2, h3⟩ := lookup_some.1 hl
    have hn := (findAssignment_ok h2).2.1
    rcases ih with ⟨rfl, rfl⟩ | ⟨m', ref', ps', rfl, f0, hf⟩
    · refine ⟨1, fun f hf cur => ?_⟩
      obtain ⟨f, rfl⟩ : ∃ f', f = f' + 1 := ⟨f - 1, by omega⟩
      refine ⟨wm, ?_⟩
      rw [resolveDefined, h1, Res.ok_bind, h2, Res.ok_bind, h3]
      simp [hn]
    · refine ⟨f0 + 1, fun f hf' cur => ?_⟩
      obtain ⟨f, rfl⟩ : ∃ f', f = f' + 1 := ⟨f - 1, by omega⟩
      obtain ⟨w, hw⟩ := hf f (by omega) cur
      refine ⟨w, ?_⟩
      rw [resolveDefined, h1, Res.ok_bind, h2, Res.ok_bind, h3]
      exact hw

theorem simple_valueType {tree : Tree} {mod : Module} {name : Name} {t : AType} {k : Builtin} {n : Name} (h : Simple tree name mod.name t k n) :
    ∃ f0, ∀ f, f0 ≤ f → valueType tree mod f t name = .ok (leafType n k) := by
  rcases simple_resolve h with ⟨rfl, rfl⟩ | ⟨m, ref, ps, rfl, f0, hf⟩
  · refine ⟨1, fun f hf => ?_⟩
    obtain ⟨f, rfl⟩ : ∃ f', f = f' + 1 := ⟨f - 1, by omega⟩
    rfl
  · refine ⟨f0 + 2, fun f hf' => ?_⟩
    obtain ⟨f, rfl⟩ : ∃ f', f = f' + 2 := ⟨f - 2, by omega⟩
    obtain ⟨wm, hw⟩ := hf (f + 1) (by omega) mod.name
    rw [valueType, hw]
    rfl

theorem simple_resolveType {tree : Tree} {cur name : Name} {t : AType} {k : Builtin} {n : Name} (hm : ∃ m, findModule tree cur = .ok m) (h : Simple tree name cur t k n) :
    ∃ f0, ∀ f, f0 ≤ f → ∃ wm, resolveType tree cur f name t = .ok ⟨n, .leaf k, wm⟩ := by
  rcases simple_resolve h with ⟨rfl, rfl⟩ | ⟨m, ref, ps, rfl, f0, hf⟩
  · obtain ⟨m, hm⟩ := hm
    refine ⟨0, fun f _ => ⟨m, ?_⟩⟩
    rw [resolveType, hm]
    · rfl
    all_goals (intros; contradiction)
  · exact ⟨f0, fun f hf' => hf f hf' cur⟩

/-- The expression written for a kept value. -/
def exprOf : Value → Expr
  | .list vs => .oid ((arcsText vs).getD [])
  | .hex s => .view (Names.cppHex s.toList)
  | .chars s => .view (Names.cppChars s.toList)
  | .int i => .int i
  | .bool b => .bool b
  | .real d => .real d
  | .defined r => .name r
  | _ => .nothing

theorem arcsText_numbers : ∀ {vs : List Value}, (∀ v ∈ vs, (∃ i, v = .int i) ∨ ∃ n i, v = .namedNumber n i) → ∃ is, arcsText vs = some is ∧ Arcs vs is
  | [], _ => ⟨[], rfl, .nil⟩
  | v :: vs, h => by
    obtain ⟨is, h1, h2⟩ := arcsText_numbers (vs := vs) fun v hv => h v (List.mem_cons_of_mem _ hv)
    rcases h v List.mem_cons_self with ⟨i, rfl⟩ | ⟨n, i, rfl⟩
    · exact ⟨i :: is, by simp [arcsText, h1], .cons (.number i) h2⟩
    · exact ⟨i :: is, by simp [arcsText, h1], .cons (.named n i) h2⟩

theorem arcs_unique {vs : List Value} {is js : List Int} (h : Arcs vs is) (h' : Arcs vs js) : is = js := by
  induction h generalizing js with
  | nil => cases h'; rfl
  | cons ha _ ih =>
    cases h' with
    | cons hb h' =>
      rw [ih h']
      cases ha <;> cases hb <;> rfl

theorem oid_unique {vs : List Value} {is js : List Int} (h : Oid vs is) (h' : Oid vs js) : is = js := by
  cases h with
  | numbers h =>
    cases h' with
    | numbers h' => exact arcs_unique h h'
    | root _ _ => cases h with | cons h _ => cases h
  | root h0 h =>
    cases h' with
    | numbers h' => cases h' with | cons h' _ => cases h'
    | root h0' h' =>
      rw [arcs_unique h h']
      rw [h0] at h0'
      cases h0'
      rfl

theorem isHex_eq (c : Char) : Names.isHex c = Names.Spec.isHexDigit c := rfl

theorem cstring_cons {c : Char} {cs : List Char} (h1 : c ≠ '"') (h2 : c ≠ '\n') (h3 : c ≠ '\r') :
    Names.Spec.cstring (c :: cs) = (Names.Spec.cstring cs).map (c.toNat :: ·) := by
  conv => lhs; unfold Names.Spec.cstring
  split
  · rename_i heq
    cases heq
  · rename_i heq
    cases heq
    exact absurd rfl h1
  · rename_i heq
    cases heq
    exact absurd rfl h1
  · rename_i heq
    cases heq
    simp [h2, h3]

/-- What a kept value is, and what C++ makes of the expression for it. -/
theorem kept_value {ar : Around} {k : Builtin} {v : Value} (h : Kept ar.printed k v) :
    ∃ c, (∀ tree mod t n, Simple tree "" mod t k n → Denotes tree mod t v c) ∧ ∀ env n, eval ar env (leafType n k) (exprOf v) = .value c := by
  unfold Kept at h
  split at h
  · rename_i i
    refine ⟨.int i, fun _ _ _ _ hs => .int hs, fun _ _ => ?_⟩
    show (if CType.int64 = CType.int64 then if -(2 ^ 63) < i ∧ i < 2 ^ 63 then Init.value (.int i) else .unknown else .unknown) = _
    rw [if_pos rfl, if_pos h]
  · rename_i b
    exact ⟨.bool b, fun _ _ _ _ hs => .bool hs, fun _ _ => rfl⟩
  · rename_i s
    obtain ⟨h1, h2, h3⟩ := h
    refine ⟨.octets (Names.Spec.hexOctets s.toList), fun _ _ _ _ hs => .hex hs, fun _ _ => ?_⟩
    have := (Names.cppHex_iff s.toList h1).2 ⟨h2, h3⟩
    show (if CType.view = CType.view then _ else Init.unknown) = _
    rw [if_pos rfl]
    cases hl : Names.Spec.literal (Names.cppHex s.toList) with
    | none => rw [hl] at this; cases this
    | some l =>
      rw [hl] at this
      simp only [Option.map_some, Option.some.injEq] at this
      show Init.value _ = _
      rw [this]
  · rename_i k s
    obtain ⟨body, rfl, h1, h2, h3, h4, h5⟩ := h
    have hc : ∃ l, Names.Spec.cstring body = some l := by
      clear h2 h3
      induction body with
      | nil => exact ⟨[], rfl⟩
      | cons c cs ih =>
        obtain ⟨l, hl⟩ := ih (fun h => h1 (List.mem_cons_of_mem _ h)) (fun h => h4 (List.mem_cons_of_mem _ h)) (fun h => h5 (List.mem_cons_of_mem _ h))
        have g1 : c ≠ '"' := fun h => h1 (h ▸ List.mem_cons_self)
        have g2 : c ≠ '\n' := fun h => h4 (h ▸ List.mem_cons_self)
        have g3 : c ≠ '\r' := fun h => h5 (h ▸ List.mem_cons_self)
        rw [cstring_cons g1 g2 g3, hl]
        exact ⟨_, rfl⟩
    obtain ⟨l, hl⟩ := hc
    refine ⟨.octets l, fun _ _ _ _ hs => .chars hs hl, fun _ _ => ?_⟩
    have := (Names.cppChars_iff body l hl h3).2 ⟨h1, h2⟩
    show (if CType.view = CType.view then _ else Init.unknown) = _
    rw [if_pos rfl, String.toList_ofList]
    cases hx : Names.Spec.literal (Names.cppChars ('"' :: (body ++ ['"']))) with
    | none => rw [hx] at this; cases this
    | some x =>
      rw [hx] at this
      simp only [Option.map_some, Option.some.injEq] at this
      show Init.value _ = _
      rw [this]
  · rename_i d
    refine ⟨.real d, fun _ _ _ _ hs => .real hs, fun _ _ => ?_⟩
    show Init.value (.real (ar.printed d)) = _
    rw [h]
  · rename_i vs
    obtain ⟨is, h1, h2⟩ := arcsText_numbers h
    refine ⟨.oid is, fun _ _ _ _ hs => .oid hs (.numbers h2), fun _ _ => ?_⟩
    show Init.value (.oid ((arcsText vs).getD [])) = _
    rw [h1]
    rfl
  · exact h.elim

theorem kept_text {printed : UInt64 → UInt64} {k : Builtin} {v : Value} (h : Kept printed k v) (name : Name) (u : AType)
    (hu : u = .leaf k ∨ k ≠ .objectIdentifier ∧ ∃ m ref ps, u = .defined m ref ps) : valueAsString name u v = .ok (exprOf v) := by
  unfold Kept at h
  split at h
  all_goals first
    | exact h.elim
    | skip
  all_goals rcases hu with rfl | ⟨hk, m, ref, ps, rfl⟩
  all_goals first
    | rfl
    | (exact absurd rfl hk)
    | skip
  obtain ⟨is, h1, h2⟩ := arcsText_numbers h
  simp only [valueAsString, exprOf, h1]
  rfl

theorem ref_text (name ref : Name) {k : Builtin} (h1 : k ≠ .enumerated) (h2 : k ≠ .objectIdentifier) (h3 : k ≠ .bitString) (u : AType)
    (hu : u = .leaf k ∨ ∃ m ref ps, u = .defined m ref ps) : valueAsString name u (.defined ref) = .ok (.name ref) := by
  rcases hu with rfl | ⟨m, r, ps, rfl⟩
  · cases k <;> first | rfl | contradiction
  · rfl

end FastBer.Constants
