import Verif.Spec.Startable
import Verif.Props.RecursiveEmit
import Verif.Proofs.ForwardRunModules
/-!
# Default construction of the generated types returns
-/
namespace FastBer.Ast.Fwd
open Spec FastBer.Spec

theorem startable_of_occurs {tree : Tree} (hT : ∀ mod t, Occurs tree mod t → TagSafe tree mod t) (hA : AllStartable tree) {mod : Module} : ∀ (t : AType), Occurs tree mod t → Startable tree mod t
  | .leaf k, _ => .leaf _ _
  | .seqOf _ _ _, _ => .seqOf _ _ _ _
  | .setOf _ _ _, _ => .setOf _ _ _ _
  | .sequence cs e, ho => .sequence e fun c hc _ _ => startable_of_occurs hT hA c.type (.sequence ho hc)
  | .set cs e, ho => .set e fun c hc _ _ => startable_of_occurs hT hA c.type (.set ho hc)
  | .choice [] s, ho => by
    have := hT _ _ ho
    cases this with
    | choice hb =>
      cases hb with
      | choice hne _ => exact absurd rfl hne
  | .choice (a :: as) s, ho => .choice as s (startable_of_occurs hT hA a.type (.choice ho List.mem_cons_self))
  | .prefixed c n k t, ho => .prefixed c n k (startable_of_occurs hT hA t (.prefixed ho))
  | .defined m ref ps, ho => by
    have := hT _ _ ho
    cases this with
    | reference ht _ =>
      obtain ⟨hw, _, a, ha, _, hab⟩ := target_mem ht
      exact .reference ps ht (hA _ hw _ ha _ hab)
  | .objField _ _ _, ho => by
    have := hT _ _ ho
    cases this
termination_by t => sizeOf t
decreasing_by
  all_goals simp only [AType.sequence.sizeOf_spec, AType.set.sizeOf_spec, AType.choice.sizeOf_spec, AType.prefixed.sizeOf_spec, List.cons.sizeOf_spec]
  · have h1 := List.sizeOf_lt_of_mem hc
    have h2 : sizeOf c.type < sizeOf c := by cases c; simp only [Comp.type, Comp.mk.sizeOf_spec]; omega
    omega
  · have h1 := List.sizeOf_lt_of_mem hc
    have h2 : sizeOf c.type < sizeOf c := by cases c; simp only [Comp.type, Comp.mk.sizeOf_spec]; omega
    omega
  · have h2 : sizeOf a.type < sizeOf a := by cases a; simp only [Named.type, Named.mk.sizeOf_spec]; omega
    omega
  · omega

section
variable {lib : Lib} {tree : Tree} {E : REnv Key}

/-- More stack does no harm. -/
theorem program_init_mono (k j : Nat) (n : Key) : InitLe (E.program k n) (E.program (k + j) n) := by
  unfold REnv.program
  rw [REnv.approx_add]
  exact REnv.program_init_le _ k n

theorem codec_init_mono {R : RTy Key} {k k' : Nat} (h : k ≤ k') {o : Obj} (ho : (R.codec (E.program k)).init = .ok o) :
    (R.codec (E.program k')).init = .ok o := by
  obtain ⟨j, rfl⟩ := Nat.exists_eq_add_of_le h
  exact RTy.init_le (fun n => program_init_mono k j n) R o ho

theorem fields_init_mono {fs : RFields Key} {k k' : Nat} (h : k ≤ k') {os : List Obj} (ho : initFields (fs.fields (E.program k)) = .ok os) :
    initFields (fs.fields (E.program k')) = .ok os := by
  obtain ⟨j, rfl⟩ := Nat.exists_eq_add_of_le h
  exact RFields.init_le (fun n => program_init_mono k j n) fs os ho

/-- The C++ types for an ASN.1 type can be default constructed. -/
def Starts (lib : Lib) (tree : Tree) (E : REnv Key) (mod : Module) (t : AType) : Prop :=
  ∀ R : RTy Key, R.Body lib tree mod t → (R.close E.stub).WF → ∃ k o, (R.codec (E.program k)).init = .ok o

theorem Starts.of_core {mod mod' : Module} {t t' : AType} (h : Starts lib tree E mod t) (hc : ∀ wm u, Core tree mod' t' wm u → Core tree mod t wm u) :
    Starts lib tree E mod' t' := fun R hb hw => h R (hb.of_core hc) hw

theorem starts_fields {mod : Module} : ∀ (fs : RFields Key) (all : Bool) (ss : List Slot), fs.Body lib tree all mod ss → (fs.close E.stub).WF →
    (∀ s ∈ ss, s.mayBeAbsent = false → Starts lib tree E mod s.type) → ∃ k os, initFields (fs.fields (E.program k)) = .ok os
  | .nil, _, _, _, _, _ => ⟨0, [], rfl⟩
  | .cons kind ls T rest, all, ss, hb, hw, hs => by
    obtain ⟨s, ss', rfl, hk, _, hT, _, hrest⟩ := hb
    obtain ⟨hw1, _, hw2⟩ := hw
    obtain ⟨k1, os, h1⟩ := starts_fields rest all ss' hrest hw2 fun s hs' => hs s (List.mem_cons_of_mem _ hs')
    have head : ∃ k o, ∀ k' ≥ k, (Field.mk kind ls (T.codec (E.program k'))).init = .ok o := by
      cases kind with
      | mandatory =>
        obtain ⟨k, o, ho⟩ := hs s List.mem_cons_self hk T hT hw1
        exact ⟨k, o, fun k' hk' => codec_init_mono hk' ho⟩
      | optional => exact ⟨0, _, fun _ _ => rfl⟩
      | default d => exact ⟨0, _, fun _ _ => rfl⟩
    obtain ⟨k2, o, h2⟩ := head
    refine ⟨max k1 k2, o :: os, ?_⟩
    simp only [RFields.fields, initFields]
    rw [Exec.bind_eq_ok]
    refine ⟨o, h2 _ (Nat.le_max_right _ _), ?_⟩
    rw [Exec.bind_eq_ok]
    exact ⟨os, fields_init_mono (Nat.le_max_left _ _) h1, rfl⟩

theorem starts_slots {mod : Module} {cs : List Comp} (h : ∀ c, c ∈ cs → c.optional = false → c.default = none → Starts lib tree E mod c.type) :
    ∀ s ∈ slots mod cs, s.mayBeAbsent = false → Starts lib tree E mod s.type := by
  intro s hs ha
  obtain ⟨i, hi⟩ := List.getElem?_of_mem hs
  unfold slots at hi
  rw [List.getElem?_zipWith] at hi
  split at hi
  · rename_i c t hc ht
    cases hi
    have hcm := List.mem_of_getElem? hc
    simp only [Bool.or_eq_false_iff] at ha
    have hst := h c hcm ha.1 (by simpa using ha.2)
    unfold autoTags at ht
    split at ht
    · rw [List.getElem?_mapIdx, List.getElem?_map, hc] at ht
      cases ht
      refine hst.of_core fun wm u hcore => ?_
      cases hcore with
      | here h => cases h
      | prefixed h => exact h
    · rw [List.getElem?_map, hc] at ht
      cases ht
      exact hst
  · cases hi

/-- The type is that of a class, or known as it is. -/
theorem starts_of {mod : Module} {t : AType} (ht : isCore t = true) (hwf : ∀ k, (E k).isRef = false ∧ (E.one k).WF)
    (href : ∀ k, (RTy.ref k).Body lib tree mod t → E k = unused ∨ (E k).Body lib tree mod t)
    (h : ∀ R : RTy Key, R.isRef = false → R.Body lib tree mod t → (R.close E.stub).WF → ∃ k o, (R.codec (E.program k)).init = .ok o) :
    Starts lib tree E mod t := by
  intro R hb hw
  cases hr : R.isRef with
  | false => exact h R hr hb hw
  | true =>
    cases R with
    | ref k =>
      rcases href k hb with hu | hb'
      · refine ⟨1, ?_⟩
        show ∃ o, ((E k).codec _).init = .ok o
        rw [hu]
        exact ⟨_, rfl⟩
      · obtain ⟨j, o, ho⟩ := h (E k) (hwf k).1 hb' (hwf k).2
        exact ⟨j + 1, o, ho⟩
    | _ => cases hr

theorem starts_startable (hwf : ∀ k, (E k).isRef = false ∧ (E.one k).WF)
    (href : ∀ k mod t, (RTy.ref k).Body lib tree mod t → E k = unused ∨ (E k).Body lib tree mod t) {mod : Module} {t : AType} (h : Startable tree mod t) :
    Starts lib tree E mod t := by
  have lists : ∀ (mod : Module) (t : AType), isCore t = true → isList t = true → Starts lib tree E mod t := by
    intro mod t hcore hl
    refine starts_of hcore hwf (fun k => href k _ _) fun R hr hb hw => ?_
    cases R with
    | seqOf id T => exact ⟨0, _, rfl⟩
    | leaf l i => obtain ⟨wm, k, hc, _⟩ := hb; rw [((Core.here hcore).unique hc).2] at hl; cases hl
    | seq i fs => obtain ⟨wm, cs, e, hc, _⟩ := hb; rw [((Core.here hcore).unique hc).2] at hl; cases hl
    | set i e fs => obtain ⟨wm, cs, hc, _⟩ := hb; rw [((Core.here hcore).unique hc).2] at hl; cases hl
    | choice cid as => obtain ⟨wm, as', s, hc, _⟩ := hb; rw [((Core.here hcore).unique hc).2] at hl; cases hl
    | ref k => cases hr
  induction h with
  | seqOf mod n t s => exact lists _ _ rfl rfl
  | setOf mod n t s => exact lists _ _ rfl rfl
  | leaf mod k =>
    refine starts_of rfl hwf (fun k => href k _ _) fun R hr hb hw => ?_
    cases R with
    | leaf l i =>
      obtain ⟨o, _, _, ho, _⟩ := (leaf_laws l i hw).init
      exact ⟨0, o, ho⟩
    | seqOf i T => obtain ⟨wm, n, u, s, hc | hc, _⟩ := hb <;> (have := ((Core.here (rfl : isCore (.leaf k) = true)).unique hc).2; cases this)
    | seq i fs => obtain ⟨wm, cs, e, hc, _⟩ := hb; have := ((Core.here (rfl : isCore (.leaf k) = true)).unique hc).2; cases this
    | set i e fs => obtain ⟨wm, cs, hc, _⟩ := hb; have := ((Core.here (rfl : isCore (.leaf k) = true)).unique hc).2; cases this
    | choice cid as => obtain ⟨wm, as', s, hc, _⟩ := hb; have := ((Core.here (rfl : isCore (.leaf k) = true)).unique hc).2; cases this
    | ref k => cases hr
  | @sequence mod cs e _ ih =>
    refine starts_of rfl hwf (fun k => href k _ _) fun R hr hb hw => ?_
    cases R with
    | seq i fs =>
      obtain ⟨wm, cs', e', hc, hf⟩ := hb
      obtain ⟨rfl, he⟩ := (Core.here (rfl : isCore (.sequence cs e) = true)).unique hc
      cases he
      obtain ⟨k, os, ho⟩ := starts_fields fs false _ hf hw.2 (starts_slots ih)
      exact ⟨k, .struct os, by simp only [RTy.codec, seqCodec, collCodec, ho]; rfl⟩
    | leaf l i => obtain ⟨wm, k, hc, _⟩ := hb; have := ((Core.here (rfl : isCore (.sequence cs e) = true)).unique hc).2; cases this
    | seqOf i T => obtain ⟨wm, n, u, s, hc | hc, _⟩ := hb <;> (have := ((Core.here (rfl : isCore (.sequence cs e) = true)).unique hc).2; cases this)
    | set i e fs => obtain ⟨wm, cs, hc, _⟩ := hb; have := ((Core.here rfl).unique hc).2; cases this
    | choice cid as => obtain ⟨wm, as', s, hc, _⟩ := hb; have := ((Core.here (rfl : isCore (.sequence cs e) = true)).unique hc).2; cases this
    | ref k => cases hr
  | @set mod cs e _ ih =>
    refine starts_of rfl hwf (fun k => href k _ _) fun R hr hb hw => ?_
    cases R with
    | set i e' fs =>
      obtain ⟨wm, cs', hc, hf⟩ := hb
      obtain ⟨rfl, he⟩ := (Core.here (rfl : isCore (.set cs e) = true)).unique hc
      cases he
      obtain ⟨k, os, ho⟩ := starts_fields fs true _ hf hw.2 (starts_slots ih)
      exact ⟨k, .struct os, by simp only [RTy.codec, setCodec, collCodec, ho]; rfl⟩
    | leaf l i => obtain ⟨wm, k, hc, _⟩ := hb; have := ((Core.here (rfl : isCore (.set cs e) = true)).unique hc).2; cases this
    | seqOf i T => obtain ⟨wm, n, u, s, hc | hc, _⟩ := hb <;> (have := ((Core.here (rfl : isCore (.set cs e) = true)).unique hc).2; cases this)
    | seq i fs => obtain ⟨wm, cs', e', hc, _⟩ := hb; have := ((Core.here (rfl : isCore (.set cs e) = true)).unique hc).2; cases this
    | choice cid as => obtain ⟨wm, as', s, hc, _⟩ := hb; have := ((Core.here (rfl : isCore (.set cs e) = true)).unique hc).2; cases this
    | ref k => cases hr
  | @choice mod a as s _ ih =>
    refine starts_of rfl hwf (fun k => href k _ _) fun R hr hb hw => ?_
    cases R with
    | choice cid fs =>
      obtain ⟨wm, as', s', hc, hf, _⟩ := hb
      obtain ⟨rfl, he⟩ := (Core.here (rfl : isCore (.choice (a :: as) s) = true)).unique hc
      cases he
      cases fs with
      | nil =>
        have hf' : choices mod (a :: as) = [] := hf
        unfold choices autoTags at hf'
        split at hf' <;> simp at hf'
      | cons ls T rest =>
        obtain ⟨t', ts', he, _, hT, _⟩ := hf
        have hst : Starts lib tree E mod t' := by
          unfold choices autoTags at he
          split at he
          · simp only [List.map_cons, List.mapIdx_cons, List.cons.injEq] at he
            rw [← he.1]
            refine ih.of_core fun wm u hcore => ?_
            cases hcore with
            | here h => cases h
            | prefixed h => exact h
          · simp only [List.map_cons, List.cons.injEq] at he
            rw [← he.1]
            exact ih
        have hwT : (T.close E.stub).WF := by
          cases cid with
          | tagged i => exact hw.2.1.1
          | untagged ids => exact hw.2.1.1
        obtain ⟨k, o, ho⟩ := hst T hT hwT
        exact ⟨k, .alt 0 o, by simp only [RTy.codec, choiceCodec, RAlts.alts, ho]; rfl⟩
    | leaf l i => obtain ⟨wm, k, hc, _⟩ := hb; have := ((Core.here (rfl : isCore (.choice (a :: as) s) = true)).unique hc).2; cases this
    | seqOf i T => obtain ⟨wm, n, u, s', hc | hc, _⟩ := hb <;> (have := ((Core.here (rfl : isCore (.choice (a :: as) s) = true)).unique hc).2; cases this)
    | seq i fs => obtain ⟨wm, cs', e', hc, _⟩ := hb; have := ((Core.here (rfl : isCore (.choice (a :: as) s) = true)).unique hc).2; cases this
    | set i e fs => obtain ⟨wm, cs, hc, _⟩ := hb; have := ((Core.here (rfl : isCore (.choice (a :: as) s) = true)).unique hc).2; cases this
    | ref k => cases hr
  | prefixed c n k _ ih =>
    refine ih.of_core fun wm u hcore => ?_
    cases hcore with
    | here h => cases h
    | prefixed h => exact h
  | reference ps ht _ ih =>
    refine ih.of_core fun wm u hcore => ?_
    cases hcore with
    | here h => cases h
    | reference ht' h =>
      rw [ht] at ht'
      cases ht'
      exact h
end

/-- What is known about a named type that is referred to. -/
theorem program_body {lib : Lib} {tree : Tree} (hS : Supported tree) {fuel : Nat} {env : Env} (h : generate lib fuel tree = .ok env) (k : Key)
    (mod : Module) (t : AType) (hb : (RTy.ref k).Body lib tree mod t) : env.program k = unused ∨ (env.program k).Body lib tree mod t := by
  obtain ⟨wm, u, w, c, ha, hc1, hc2, hst, hne⟩ := hb
  obtain ⟨hwm, hwn, a, ham, han, hab⟩ := ha.mem
  obtain ⟨T, hT, hr⟩ := generate_exists hS h hwm ham hab
  have hentry := generate_entry hS h hwm ham hab hT
  rw [hwn, han] at hT
  have hcore : ∀ w' c', Core tree wm u w' c' → Core tree mod t w' c' := by
    intro w' c' hc
    obtain ⟨rfl, rfl⟩ := hc1.unique hc
    exact hc2
  rcases program_cases env k with hu | ⟨T', h1, h2, ⟨h3, h4⟩ | ⟨id, T'', h3, h4, h5, h6⟩⟩
  · exact .inl hu
  · rw [hT] at h1
    cases h1
    right
    rw [h4]
    exact hentry.1.of_core hcore
  · rw [hT] at h1
    cases h1
    right
    rw [h6]
    exact (withId_ok (fits_list h5).1 h4 hentry.1).2.of_core hcore

theorem occurs_elemAt {tree : Tree} {mod : Module} : ∀ (k : Nat) {t u : AType}, Occurs tree mod t → elemAt k t = some u → Occurs tree mod u
  | 0, t, u, ho, h => by cases h; exact ho
  | k + 1, t, u, ho, h => by
    have ho' := untag_occurs ho
    rw [elemAt] at h
    split at h
    · rename_i hu; rw [hu] at ho'; exact occurs_elemAt k (.seqOf ho') h
    · rename_i hu; rw [hu] at ho'; exact occurs_elemAt k (.setOf ho') h
    · cases h

/-- If all assigned types have a value to begin with, all C++ types can be default constructed. -/
theorem program_starts {lib : Lib} {tree : Tree} (hS : Supported tree) (hL : Legal tree) (hD : lib.Defaults) (hA : AllStartable tree) {fuel : Nat} {env : Env}
    (h : generate lib fuel tree = .ok env) : ∃ k, ∀ m ref T, env.typeOf m ref = some T → ∃ o, env.program.new ⟨m, ref, none⟩ k = .ok o := by
  have hl := program_linked hS hL h
  obtain ⟨hI, _, _⟩ := runModules_inv hS tree.modules ⟨[], []⟩ env (fun _ h => h) rfl (fun m n T h => by cases h) h
  have each : ∀ m ref T, env.typeOf m ref = some T → ∃ k o, env.program.new ⟨m, ref, none⟩ k = .ok o := by
    intro m ref T hT
    cases hr : T.isRef with
    | true =>
      cases T with
      | ref k =>
        refine ⟨1, ?_⟩
        have : env.program ⟨m, ref, none⟩ = unused := by unfold Env.program; rw [hT]
        show ∃ o, ((env.program ⟨m, ref, none⟩).codec _).init = .ok o
        rw [this]
        exact ⟨_, rfl⟩
      | _ => cases hr
    | false =>
      obtain ⟨wm, a, t, j, u, hwm, hn, ha, hab, hc, hu, he⟩ := hI _ _ _ (lookup_mem (typeOf_lookup hT))
      have ho := occurs_elemAt j (.assigned hwm ha hab) hu
      have hp := program_none hT hr
      have hw := hl.wf hS hL hD ⟨m, ref, none⟩
      unfold REnv.one at hw
      rw [hp] at hw
      obtain ⟨k, o, hk⟩ := starts_startable (fun k => ⟨hl.proper k, hl.wf hS hL hD k⟩) (fun k mod t => program_body hS h k mod t) (startable_of_occurs hS.tags hA u ho) T he.1 hw
      refine ⟨k + 1, o, ?_⟩
      show ((env.program ⟨m, ref, none⟩).codec _).init = .ok o
      rw [hp]
      exact hk
  have all : ∀ l : List ((Name × Name) × Ent), ∃ k, ∀ p ∈ l, ∀ T, env.typeOf p.1.1 p.1.2 = some T → ∃ o, env.program.new ⟨p.1.1, p.1.2, none⟩ k = .ok o := by
    intro l
    induction l with
    | nil => exact ⟨0, fun _ h => by cases h⟩
    | cons p l ih =>
      obtain ⟨k, hk⟩ := ih
      have lift : ∀ k k' n, k ≤ k' → (∃ o, env.program.new n k = .ok o) → ∃ o, env.program.new n k' = .ok o := by
        rintro k k' n hkk ⟨o, ho⟩
        obtain ⟨j, rfl⟩ := Nat.exists_eq_add_of_le hkk
        exact ⟨o, program_init_mono k j n o ho⟩
      cases hT : env.typeOf p.1.1 p.1.2 with
      | none =>
        refine ⟨k, fun q hq T hT' => ?_⟩
        rcases List.mem_cons.1 hq with rfl | hq
        · rw [hT] at hT'; cases hT'
        · exact hk q hq T hT'
      | some T =>
        obtain ⟨k2, h2⟩ := each _ _ T hT
        refine ⟨max k k2, fun q hq T' hT' => ?_⟩
        rcases List.mem_cons.1 hq with rfl | hq
        · exact lift _ _ _ (Nat.le_max_right _ _) h2
        · exact lift _ _ _ (Nat.le_max_left _ _) (hk q hq T' hT')
  obtain ⟨k, hk⟩ := all env.spaces
  exact ⟨k, fun m ref T hT => hk _ (lookup_mem (typeOf_lookup hT)) T hT⟩

end FastBer.Ast.Fwd
