import Verif.Proofs.AcceptedCheck
import Verif.Proofs.Accepts
import Verif.Spec.CompilableSource
/-!
# Checking that a source is compiled

`compilableSource fuel src` computes whether `CompilableSource src`; the answer `false` may be wrong.
-/
namespace FastBer.Ast.Check
open FastBer.Ast FastBer.Ast.Spec

/-- The name does not end in `_`. -/
def notUnderscore (n : Name) : Bool := !("_".toList.isSuffixOf n.toList)

theorem notUnderscore_sound {n : Name} (h : notUnderscore n = true) : ∀ p, n ≠ p ++ "_" := by
  simp only [notUnderscore, Bool.not_eq_true'] at h
  rintro p rfl
  rw [String.toList_append] at h
  have : ("_".toList.isSuffixOf (p.toList ++ "_".toList)) = true := List.isSuffixOf_iff_suffix.2 (List.suffix_append _ _)
  rw [this] at h
  cases h

/-- The type is no SET with a name after DEFAULT. -/
def noSetDefaults : AType → Bool
  | .set cs _ => cs.all fun c => match c.default with
      | some (.defined _) => false
      | _ => true
  | _ => true

/-- The conditions on a value assignment and on what is mentioned. -/
def compilableAssignment (a : Assignment) : Bool := notValues a.name && match a.body with
  | .value t _ => (parts t).all noSetDefaults
  | _ => true

def allEdges (own : Name) (as : List Assignment) : List (Name × Name) := as.flatMap fun a => (mentionedBy own a.body).map fun v => (a.name, v)

/-- SEQUENCE OF, SET OF or ENUMERATED. -/
def simple (t : AType) : Bool := isList t || isEnumerated t

theorem simple_iff {t : AType} : simple t = true ↔ isList t = true ∨ t = .leaf .enumerated := by
  unfold simple
  rw [Bool.or_eq_true]
  refine or_congr Iff.rfl ?_
  cases t with
  | leaf k => cases k <;> simp [isEnumerated]
  | _ => simp [isEnumerated]

/-- The conditions on a type. -/
def sourceCompiled (fuel : Nat) (src : Tree) (mod : Module) (t : AType) : Bool :=
  ((storages t).all fun s => s != .dynamic) && match t with
  | .prefixed c _ _ _ => c != .universal
  | .defined q ref ps => (match q with
      | some q => q == mod.name || mod.imports.any fun i => i.module == q
      | none => true) && match core (qualify src) fuel mod (qualifyType src mod.name (.defined q ref ps)) with
      | some (_, u) => !simple u || (q.getD mod.name == mod.name && mod.assignments.any fun a => a.name == ref && match a.body with
        | .type t => simple t
        | _ => false)
      | none => false
  | .sequence cs _ => decide (cs.map fun c => typeName c.name).Nodup
  | .set cs _ => decide (cs.map fun c => typeName c.name).Nodup
  | .choice as _ => decide (as.map fun a => typeName a.name).Nodup
  | _ => true

/-- The conditions on a type and its name. -/
def calledOk (n : Name) : AType → Bool
  | .choice as _ => as.all fun a => typeName a.name != n
  | .sequence cs _ => cs.all fun c => !isStruct c.type || typeName c.name != n
  | .set cs _ => cs.all fun c => !isStruct c.type || typeName c.name != n
  | _ => true

def compilableSourceNames (fuel : Nat) (src : Tree) : Bool :=
  (src.modules.all fun m => m.assignments.all compilableAssignment && (m.imports.all fun i => i.types.all fun n => notValues n &&
      match core (qualify src) fuel m (qualifyType src m.name (.defined (some i.module) n [])) with
      | some (_, u) => !isEnumerated u
      | none => false) && m.assignments.all fun a => match a.body with
      | .type t => calledOk a.name t
      | _ => true) &&
  every src (sourceCompiled fuel src) &&
  everyField src fun m n t => notValues (typeName n) && (notUnderscore (typeName n) || everyField src fun m' n' _ => m'.name != m.name || typeName n != typeName n' ++ "_") && named (typeName n) &&
    calledOk (typeName n) t

theorem compilableSourceNames_sound {fuel : Nat} {src : Tree} (h : compilableSourceNames fuel src = true) : CompilableSourceNames src := by
  simp only [compilableSourceNames, Bool.and_eq_true] at h
  obtain ⟨⟨h1, h2⟩, h3⟩ := h
  have hm : ∀ {m}, m ∈ src.modules → _ := fun {m} hm => List.all_eq_true.1 h1 m hm
  simp only [Bool.and_eq_true] at hm
  have hf : ∀ {m n t}, Spec.Field src m n t → _ := fun h => everyField_sound h3 h
  simp only [Bool.and_eq_true] at hf
  have ht : ∀ {m t}, Occurs src m t → sourceCompiled fuel src m t = true := fun h => every_sound h2 h
  simp only [sourceCompiled, Bool.and_eq_true] at ht
  have hcalled : ∀ {m n t}, Called src m n t → calledOk n t = true := by
    intro m n t h
    cases h with
    | assigned hmm ha hb =>
      have := List.all_eq_true.1 (hm hmm).2 _ ha
      rw [hb] at this
      exact this
    | field h => exact (hf h).2
  constructor
  · intro m c n k t ho
    simpa using (ht ho).2
  · intro m t ho s hs
    simpa using List.all_eq_true.1 (ht ho).1 s hs
  · intro m hmm a ha t v hb u hu
    have := List.all_eq_true.1 (hm hmm).1.1 a ha
    simp only [compilableAssignment, Bool.and_eq_true, hb] at this
    have hin : u ∈ parts t := by
      rcases hu with rfl | hu
      · exact parts_self _
      · exact inside_parts hu
    have := List.all_eq_true.1 this.2 u hin
    rintro ⟨cs, e, rfl, c, hc, v', hv⟩
    have := List.all_eq_true.1 this c hc
    rw [hv] at this
    cases this
  · intro m q ref ps ho
    have := ((Bool.and_eq_true _ _).mp (ht ho).2).1
    simp only [Bool.or_eq_true, beq_iff_eq, List.any_eq_true] at this
    exact this
  · intro m q ref ps wm u ho hc hu
    have := ((Bool.and_eq_true _ _).mp (ht ho).2).2
    split at this
    · rename_i wm' u' hcc
      obtain ⟨_, rfl⟩ := (core_sound _ _ _ _ _ hcc).unique hc
      simp only [simple_iff.2 hu, Bool.not_true, Bool.false_or, Bool.and_eq_true, beq_iff_eq, List.any_eq_true] at this
      obtain ⟨h4, a, ha, h5, h6⟩ := this
      refine ⟨h4, a, ha, h5, ?_⟩
      split at h6
      · rename_i t hb
        exact ⟨t, hb, simple_iff.1 h6⟩
      · cases h6
    · cases this
  · intro m hmm i hi n hn wm u hc
    have := List.all_eq_true.1 (List.all_eq_true.1 (hm hmm).1.2 i hi) n hn
    simp only [Bool.and_eq_true] at this
    have := this.2
    split at this
    · rename_i wm' u' hcc
      obtain ⟨_, rfl⟩ := (core_sound _ _ _ _ _ hcc).unique hc
      rintro rfl
      cases this
    · cases this
  · intro m hmm a ha
    have := List.all_eq_true.1 (hm hmm).1.1 a ha
    simp only [compilableAssignment, Bool.and_eq_true] at this
    exact notValues_sound this.1
  · intro m hmm i hi n hn
    have := List.all_eq_true.1 (List.all_eq_true.1 (hm hmm).1.2 i hi) n hn
    simp only [Bool.and_eq_true] at this
    exact notValues_sound this.1
  · exact fun m n t h => notValues_sound (hf h).1.1.1
  · intro m n t h n' t' h'
    rcases (Bool.or_eq_true _ _).mp (hf h).1.1.2 with h1 | h1
    · exact notUnderscore_sound h1 _
    · have := everyField_sound h1 h'
      simpa using this
  · exact fun m n t h => named_sound (hf h).1.2
  · exact fun m cs e ho => of_decide_eq_true (ht ho).2
  · exact fun m cs e ho => of_decide_eq_true (ht ho).2
  · exact fun m cs e ho => of_decide_eq_true (ht ho).2
  · intro m n as s a hc ha
    simpa using List.all_eq_true.1 (hcalled hc) a ha
  · intro m n cs e c hc hcm hst
    have := List.all_eq_true.1 (hcalled hc) c hcm
    simpa [hst] using this
  · intro m n cs e c hc hcm hst
    have := List.all_eq_true.1 (hcalled hc) c hcm
    simpa [hst] using this

theorem allEdges_sound {own : Name} {as : List Assignment} {u v : Name} (h : MentionedBy own as u v) : (u, v) ∈ allEdges own as := by
  obtain ⟨a, ha, rfl, hu⟩ := h
  exact List.mem_flatMap.2 ⟨a, ha, List.mem_map.2 ⟨v, mentionedBy_sound hu, rfl⟩⟩

def compilableSource (fuel : Nat) (src : Tree) : Bool :=
  compilableSourceNames fuel src && src.modules.all fun m => acyclic fuel (allEdges m.name m.assignments)

theorem compilableSource_sound {fuel : Nat} {src : Tree} (h : compilableSource fuel src = true) : CompilableSource src := by
  simp only [compilableSource, Bool.and_eq_true] at h
  exact ⟨compilableSourceNames_sound h.1, fun m hm => acyclic_sound (List.all_eq_true.1 h.2 m hm) fun _ _ => allEdges_sound⟩

/-! ## With recursive types -/

/-- All ways from the name end. -/
def ends (edges : List (Name × Name)) : Nat → Name → Bool
  | 0, _ => false
  | f + 1, n => edges.all fun e => e.1 != n || ends edges f e.2

theorem ends_sound {edges : List (Name × Name)} {R : Name → Name → Prop} (hR : ∀ u v, R u v → (u, v) ∈ edges) : ∀ (f : Nat) (n : Name), ends edges f n = true → Acc (fun x y => R y x) n
  | 0, _, h => by cases h
  | f + 1, n, h => ⟨_, fun v hv => by
      have := List.all_eq_true.1 h _ (hR _ _ hv)
      simp only [bne_self_eq_false, Bool.false_or] at this
      exact ends_sound hR f v this⟩

theorem acc_no_leads {m : Module} {n : Name} (h : Acc (fun x y => MentionedBy m.name m.assignments y x) n) : ¬ LeadsToCycle m n := by
  rintro ⟨c, rfl | h1, h2⟩
  · exact acc_no_cycle h h2
  · refine acc_no_cycle ?_ h2
    clear h2
    induction h1 with
    | single h1 => exact h.inv h1
    | tail _ h1 ih => exact ih.inv h1

mutual
/-- What is `Hidden` in the type. -/
def hiddenParts : AType → List AType
  | .choice as _ => altParts as
  | .seqOf _ t _ => parts t
  | .setOf _ t _ => parts t
  | .sequence cs _ => hiddenComps cs
  | .set cs _ => hiddenComps cs
  | .prefixed _ _ _ t => hiddenParts t
  | _ => []
def hiddenComps : List Comp → List AType
  | [] => []
  | .mk _ t o _ _ _ :: cs => (if o then parts t else hiddenParts t) ++ hiddenComps cs
end

theorem within_parts {t u : AType} (h : t = u ∨ Inside t u) : u ∈ parts t := by
  rcases h with rfl | h
  · exact parts_self _
  · exact inside_parts h

mutual
theorem hiddenParts_parts : ∀ (t : AType) {u : AType}, u ∈ hiddenParts t → u ∈ parts t
  | .choice as s, u, h => by rw [hiddenParts] at h; rw [parts]; exact List.mem_cons_of_mem _ h
  | .seqOf n t s, u, h => by rw [hiddenParts] at h; rw [parts]; exact List.mem_cons_of_mem _ h
  | .setOf n t s, u, h => by rw [hiddenParts] at h; rw [parts]; exact List.mem_cons_of_mem _ h
  | .sequence cs e, u, h => by rw [hiddenParts] at h; rw [parts]; exact List.mem_cons_of_mem _ (hiddenComps_parts cs h)
  | .set cs e, u, h => by rw [hiddenParts] at h; rw [parts]; exact List.mem_cons_of_mem _ (hiddenComps_parts cs h)
  | .prefixed c n k t, u, h => by rw [hiddenParts] at h; rw [parts]; exact List.mem_cons_of_mem _ (hiddenParts_parts t h)
  | .leaf _, _, h => by simp [hiddenParts] at h
  | .defined _ _ _, _, h => by simp [hiddenParts] at h
  | .objField _ _ _, _, h => by simp [hiddenParts] at h
theorem hiddenComps_parts : ∀ (cs : List Comp) {u : AType}, u ∈ hiddenComps cs → u ∈ compParts cs
  | [], _, h => by rw [hiddenComps] at h; cases h
  | .mk n t o d co s :: cs, u, h => by
    rw [hiddenComps, List.mem_append] at h
    rw [compParts, List.mem_append]
    rcases h with h | h
    · split at h
      · exact .inl h
      · exact .inl (hiddenParts_parts t h)
    · exact .inr (hiddenComps_parts cs h)
end

theorem mem_hiddenComps {c : Comp} {u : AType} : ∀ {cs : List Comp}, c ∈ cs → (c.optional = true ∧ u ∈ parts c.type) ∨ u ∈ hiddenParts c.type → u ∈ hiddenComps cs
  | .mk n t o d co s :: cs, hc, h => by
    rw [hiddenComps, List.mem_append]
    rcases List.mem_cons.1 hc with rfl | hc
    · refine .inl ?_
      rcases h with ⟨h1, h2⟩ | h
      · have h1 : o = true := h1
        rw [if_pos h1]; exact h2
      · split
        · exact hiddenParts_parts t h
        · exact h
    · exact .inr (mem_hiddenComps hc h)

theorem hidden_parts {t u : AType} (h : Hidden t u) : u ∈ hiddenParts t := by
  induction h with
  | choice ha h => rw [hiddenParts]; exact mem_altParts ha (within_parts h)
  | seqOf h => rw [hiddenParts]; exact within_parts h
  | setOf h => rw [hiddenParts]; exact within_parts h
  | sequenceOptional hc ho h => rw [hiddenParts]; exact mem_hiddenComps hc (.inl ⟨ho, within_parts h⟩)
  | setOptional hc ho h => rw [hiddenParts]; exact mem_hiddenComps hc (.inl ⟨ho, within_parts h⟩)
  | sequence hc _ ih => rw [hiddenParts]; exact mem_hiddenComps hc (.inr ih)
  | set hc _ ih => rw [hiddenParts]; exact mem_hiddenComps hc (.inr ih)
  | prefixed _ ih => rw [hiddenParts]; exact ih

/-- The conditions `lists` and `enums` on one assigned type. -/
def recursionOk (fuel : Nat) (src : Tree) (m : Module) (t : AType) : Bool :=
  ((hiddenParts t).all fun u => match u with
    | .defined q ref ps => match core (qualify src) fuel m (qualifyType src m.name (.defined q ref ps)) with
      | some (_, u) => !simple u
      | none => false
    | .prefixed _ _ _ u => !isEnumerated u
    | _ => true) && (parts t).all fun u => match u with
    | .seqOf _ u _ => !isEnumerated u
    | .setOf _ u _ => !isEnumerated u
    | _ => true

def compilableSourceForward (fuel : Nat) (src : Tree) : Bool :=
  compilableSourceNames fuel src && src.modules.all fun m => m.assignments.all fun a => match a.body with
    | .type t => recursionOk fuel src m t || ends (allEdges m.name m.assignments) fuel a.name
    | _ => true

theorem compilableSourceForward_sound {fuel : Nat} {src : Tree} (h : compilableSourceForward fuel src = true) : RCompilableSource src := by
  simp only [compilableSourceForward, Bool.and_eq_true] at h
  have key : ∀ m ∈ src.modules, ∀ a ∈ m.assignments, ∀ t, a.body = .type t → LeadsToCycle m a.name → recursionOk fuel src m t = true := by
    intro m hm a ha t hb hl
    have := List.all_eq_true.1 (List.all_eq_true.1 h.2 m hm) a ha
    rw [hb] at this
    simp only [Bool.or_eq_true] at this
    exact this.resolve_right fun he => acc_no_leads (ends_sound (fun _ _ => allEdges_sound) _ _ he) hl
  refine ⟨compilableSourceNames_sound h.1, ?_, ?_⟩
  · intro m hm a ha t hb hl q ref ps hh wm u hc
    have := key m hm a ha t hb hl
    simp only [recursionOk, Bool.and_eq_true] at this
    have := List.all_eq_true.1 this.1 _ (hidden_parts hh)
    dsimp only at this
    split at this
    · rename_i wm' u' hcc
      obtain ⟨_, rfl⟩ := (core_sound _ _ _ _ _ hcc).unique hc
      simp only [Bool.not_eq_true'] at this
      refine ⟨?_, ?_⟩
      · cases hu : isList u' with
        | false => rfl
        | true => rw [simple_iff.2 (.inl hu)] at this; cases this
      · intro hu
        rw [simple_iff.2 (.inr hu)] at this; cases this
    · cases this
  · intro m hm a ha t hb hl u hu
    have := key m hm a ha t hb hl
    simp only [recursionOk, Bool.and_eq_true] at this
    have h2 := List.all_eq_true.1 this.2 _ (within_parts hu)
    refine ⟨?_, ?_, ?_⟩
    · rintro n s rfl; cases h2
    · rintro n s rfl; cases h2
    · rintro c n k hh rfl
      have := List.all_eq_true.1 this.1 _ (hidden_parts hh)
      cases this

end FastBer.Ast.Check
