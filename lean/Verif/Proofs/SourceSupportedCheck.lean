import Verif.Proofs.SourceCheck
import Verif.Spec.SupportedSource
/-!
# Checking the restrictions on a source

`supportedSource fuel src` computes whether `SupportedSource src`; the answer `false` may be wrong.
-/
namespace FastBer.Ast.Check
open FastBer.Ast FastBer.Ast.Spec

/-- `TaggedStruct`. -/
def taggedStruct (tree : Tree) : Nat → Module → AType → Option Bool
  | 0, _, _ => none
  | f + 1, mod, t => match t with
    | .prefixed _ _ _ t' => match core tree f mod t' with
      | some (_, u) => some (isStruct u)
      | none => none
    | .defined m ref _ => match target tree mod m ref with
      | some (wm, u) => taggedStruct tree f wm u
      | none => some false
    | _ => some false

theorem taggedStruct_sound {tree : Tree} : ∀ (f : Nat) (mod : Module) (t : AType), taggedStruct tree f mod t = some false → ¬ TaggedStruct tree mod t
  | 0, _, _, h => by cases h
  | f + 1, mod, t, h => by
    unfold taggedStruct at h
    intro hl
    cases hl with
    | @tagged _ c n k t' wm u h2 h3 =>
      dsimp only at h
      split at h
      · rename_i wm' u' hc
        obtain ⟨_, rfl⟩ := (core_sound f mod t' wm' u' hc).unique h2
        rw [h3] at h
        cases h
      · cases h
    | reference ht hl =>
      simp only [ht] at h
      exact taggedStruct_sound f _ _ h hl

/-- `SourceRefOk`. -/
def sourceRefOk (src : Tree) (cur : Name) : Nat → Name → Name → Bool
  | 0, _, _ => false
  | f + 1, mod, ref => match lookup src mod ref with
    | some (.type t) => match t with
      | .defined m r _ => sourceRefOk src cur f (m.getD mod) r
      | .prefixed _ _ _ (.defined m r _) => m.getD cur == m.getD mod && sourceRefOk src cur f (m.getD mod) r
      | _ => true
    | _ => src.modules.any fun m => m.name == mod && m.imports.any fun i => i.types.contains ref && sourceRefOk src cur f i.module ref

theorem sourceRefOk_sound {src : Tree} {cur : Name} : ∀ (f : Nat) (mod ref : Name), sourceRefOk src cur f mod ref = true → SourceRefOk src cur mod ref
  | 0, _, _, h => by cases h
  | f + 1, mod, ref, h => by
    unfold sourceRefOk at h
    split at h
    · rename_i t hl
      split at h
      · exact .alias hl (sourceRefOk_sound f _ _ h)
      · simp only [Bool.and_eq_true, beq_iff_eq] at h
        exact .tagged hl h.1 (sourceRefOk_sound f _ _ h.2)
      · rename_i h1 h2
        refine .here hl ?_
        intro m r hr
        cases hr with
        | direct => exact h1 _ _ _ rfl
        | tagged => exact h2 _ _ _ _ _ _ rfl
    · obtain ⟨m, hm, h⟩ := List.any_eq_true.1 h
      simp only [Bool.and_eq_true, beq_iff_eq] at h
      obtain ⟨i, hi, h'⟩ := List.any_eq_true.1 h.2
      simp only [Bool.and_eq_true] at h'
      rw [← h.1]
      exact .imported hm hi (by simpa using h'.1) (sourceRefOk_sound f _ _ h'.2)

/-- The conditions on one type of the source. -/
def sourceType (fuel : Nat) (src : Tree) (mod : Module) : AType → Bool
  | .defined m ref ps => sourceRefOk src mod.name fuel (m.getD mod.name) ref &&
      (match core (qualify src) fuel mod (qualifyType src mod.name (.defined m ref ps)) with
        | some (_, u) => !isList u || m.getD mod.name == mod.name
        | none => false)
  | .prefixed _ _ _ (.prefixed _ _ _ t') => !isReference (untag t') && !getsName (untag t')
  | _ => true

/-- The conditions on one component or alternative of the source. -/
def sourceField (mod : Module) (n : Name) (t : AType) : Bool :=
  goodName (typeName n) &&
  (!isList (untag t) || ((mod.assignments.all fun a => a.name != typeName n && a.name != typeName n ++ "_") &&
    (mod.imports.all fun i => i.types.all fun x => x != typeName n && x != typeName n ++ "_") && named (typeName n)))

/-- The conditions on one type of the qualified source. -/
def qualifiedType (fuel : Nat) (tree : Tree) (mod : Module) (t : AType) : Bool :=
  tagSafe tree fuel mod t && match t with
  | .seqOf _ t' _ => taggedStruct tree fuel mod t' == some false
  | .setOf _ t' _ => taggedStruct tree fuel mod t' == some false
  | .sequence cs _ => mod.tagging != .automatic || cs.all fun c => !c.optional && c.default.isNone
  | _ => true

/-- The conditions on one component or alternative of the qualified source. -/
def qualifiedField (fuel : Nat) (tree : Tree) (mod : Module) (_n : Name) (t : AType) : Bool :=
  mod.tagging != .automatic || (!hasTag t &&
    (match ownTags tree fuel mod t with
      | some ts => ts.length ≤ 1
      | none => false) &&
    (!isReference t || match core tree fuel mod t with
      | some (_, u) => !isStruct u
      | none => false))

/-- `SupportedSource`. -/
def supportedSource (fuel : Nat) (src : Tree) : Bool :=
  (src.modules.all fun mod => (mod.assignments.all fun a => goodName a.name) && mod.imports.all fun i => i.types.all fun n => goodName n &&
    sourceRefOk src mod.name fuel i.module n && match core (qualify src) fuel mod (qualifyType src mod.name (.defined (some i.module) n [])) with
      | some (_, u) => !isList u
      | none => false) &&
  every src (sourceType fuel src) && everyField src sourceField && every (qualify src) (qualifiedType fuel (qualify src)) &&
    everyField (qualify src) (qualifiedField fuel (qualify src))

theorem supportedSource_sound {fuel : Nat} {src : Tree} (h : supportedSource fuel src = true) : SupportedSource src := by
  simp only [supportedSource, Bool.and_eq_true, List.all_eq_true] at h
  obtain ⟨⟨⟨⟨h0, h1⟩, h2⟩, h3⟩, h4⟩ := h
  have st : ∀ {mod t}, Occurs src mod t → sourceType fuel src mod t = true := fun h => every_sound h1 h
  have sf : ∀ {mod n t}, Spec.Field src mod n t → _ := fun h => everyField_sound h2 h
  simp only [sourceField, Bool.and_eq_true, Bool.or_eq_true, List.all_eq_true] at sf
  have ty : ∀ {mod t}, Occurs (qualify src) mod t → qualifiedType fuel (qualify src) mod t = true := fun h => every_sound h3 h
  have fd : ∀ {mod n t}, Spec.Field (qualify src) mod n t → _ := fun h => everyField_sound h4 h
  simp only [qualifiedField, Bool.and_eq_true, Bool.or_eq_true] at fd
  have nl : ∀ {t : AType}, isList (untag t) = true → ¬ (!isList (untag t)) = true := fun h => by rw [h]; decide
  constructor
  · exact fun mod hm a ha => goodName_sound ((h0 mod hm).1 a ha)
  · exact fun mod hm i hi n hn => goodName_sound ((h0 mod hm).2 i hi n hn).1.1
  · exact fun mod n t hf => goodName_sound (sf hf).1
  · intro mod n t hf hl a ha
    simpa using (((sf hf).2.resolve_left (nl hl)).1.1) a ha
  · intro mod n t hf hl i hi x hx
    simpa using (((sf hf).2.resolve_left (nl hl)).1.2) i hi x hx
  · intro mod n t hf hl
    exact named_sound ((sf hf).2.resolve_left (nl hl)).2
  · intro mod t ho
    have := ty ho
    simp only [qualifiedType, Bool.and_eq_true] at this
    exact tagSafe_sound _ _ _ this.1
  · intro mod m ref ps ho
    have := st ho
    simp only [sourceType, Bool.and_eq_true] at this
    exact sourceRefOk_sound _ _ _ this.1
  · exact fun mod hm i hi n hn => sourceRefOk_sound _ _ _ ((h0 mod hm).2 i hi n hn).1.2
  · intro mod c n k c' n' k' t ho
    have := st ho
    simp only [sourceType, Bool.and_eq_true, Bool.not_eq_true'] at this
    refine ⟨fun m ref ps heq => ?_, this.2⟩
    have := this.1
    rw [isReference_of heq] at this
    cases this
  · intro mod m ref ps wm u ho hc hl
    have := st ho
    simp only [sourceType, Bool.and_eq_true] at this
    have := this.2
    split at this
    · rename_i wm' u' hcc
      obtain ⟨_, rfl⟩ := (core_sound _ _ _ _ _ hcc).unique hc
      simpa [hl] using this
    · cases this
  · intro mod hm i hi n hn wm u hc
    have := ((h0 mod hm).2 i hi n hn).2
    split at this
    · rename_i wm' u' hcc
      obtain ⟨_, rfl⟩ := (core_sound _ _ _ _ _ hcc).unique hc
      simpa using this
    · cases this
  · intro mod n t s ho
    have := ty ho
    simp only [qualifiedType, Bool.and_eq_true, beq_iff_eq] at this
    exact taggedStruct_sound _ _ _ this.2
  · intro mod n t s ho
    have := ty ho
    simp only [qualifiedType, Bool.and_eq_true, beq_iff_eq] at this
    exact taggedStruct_sound _ _ _ this.2
  · intro mod n t hf hm
    have := (fd hf).resolve_left (by rw [hm]; decide)
    simpa using this.1.1
  · intro mod n t ts hf hm ho
    have := (fd hf).resolve_left (by rw [hm]; decide)
    have := this.1.2
    split at this
    · rename_i ts' h'
      rw [ho.unique (ownTags_sound _ _ _ _ h')]
      simpa using this
    · cases this
  · intro mod n m ref ps wm u hf hm hc
    have := (fd hf).resolve_left (by rw [hm]; decide)
    have := this.2.resolve_left (by simp [isReference])
    split at this
    · rename_i wm' u' hcc
      obtain ⟨_, rfl⟩ := (core_sound _ _ _ _ _ hcc).unique hc
      simpa using this
    · cases this
  · intro mod cs e c ho hm hc
    have := ty ho
    simp only [qualifiedType, Bool.and_eq_true, Bool.or_eq_true] at this
    have := List.all_eq_true.1 (this.2.resolve_left (by rw [hm]; decide)) c hc
    simpa using this

end FastBer.Ast.Check
