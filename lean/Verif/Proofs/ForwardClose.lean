import Verif.Proofs.ForwardOuter
import Verif.Proofs.ForwardSound
import Verif.Proofs.RecursiveWF
/-!
# Unfoldings of the generated types implement ASN.1 types

A type with references that implements an ASN.1 type (`RTy.Is`), with its references replaced by types that begin like the ones referred to,
implements it with holes (`Ty.Is`, Proofs/Impl).
-/
namespace FastBer.Ast.Fwd
open Spec

/-- What is known about the named types of the output. -/
structure Linked (lib : Lib) (tree : Tree) (E : REnv Key) : Prop where
  proper : ∀ k, (E k).isRef = false
  ref : ∀ k mod t, (RTy.ref k).Is lib tree mod t → Bounded tree mod t → (E k).Is lib tree mod t
  each : ∀ k, E k = unused ∨ ∃ mod t, Occurs tree mod t ∧ (E k).Body lib tree mod t ∧ ∀ σ, ∀ i ∈ ((E k).close σ).own, FastBer.Spec.idOk i

/-- A type of the schema, or one with an automatic tag. -/
def Placed (tree : Tree) (mod : Module) (t : AType) : Prop := Occurs tree mod t ∨ hasTag t = true

/-- What references are replaced by. -/
def hole (lib : Lib) (tree : Tree) (E : REnv Key) (σ : Key → Ty) : Holes := fun T mod t =>
  ∃ k, T = σ k ∧ (E k).Is lib tree mod t ∧ Known tree mod t ∧ Placed tree mod t

theorem Placed.safe {tree : Tree} (hS : Supported tree) {mod : Module} {t : AType} (h : Placed tree mod t) : TagSafe tree mod t ∨ hasTag t = true :=
  h.imp_left (hS.tags _ _)

/-- A type that is not a reference begins with its own tag, or like its CHOICE. -/
theorem is_cases {lib : Lib} {tree : Tree} {R : RTy Key} {mod : Module} {t : AType} (hr : R.isRef = false) (h : R.Is lib tree mod t) :
    (∃ ids as, R = .choice (.untagged ids) as ∧ OwnTags tree mod t [] ∧ ∃ wm as' s, Core tree mod t wm (.choice as' s) ∧
      as.Body lib tree wm (choices wm as') ∧ Outer tree wm (.choice as' s) ids) ∨
    ((∀ ids as, R ≠ .choice (.untagged ids) as) ∧ ∃ tag ts, OwnTags tree mod t (tag :: ts) ∧ R.ids = [idOf tag]) := by
  obtain ⟨hb, ts, ho, hown⟩ := h
  have key : ∀ id : Ident, id.list = ts.map idOf → ∃ tag ts', OwnTags tree mod t (tag :: ts') ∧ [id.outer] = [idOf tag] := by
    intro id h
    have h1 := id.outer_list
    rw [h] at h1
    cases ts with
    | nil => cases h1
    | cons tag ts => simp only [List.map_cons, List.head?_cons, Option.some.injEq] at h1; exact ⟨tag, ts, ho, by rw [h1]⟩
  cases R with
  | ref k => cases hr
  | choice cid as =>
    cases cid with
    | untagged ids =>
      obtain ⟨wm, as', s, h1, h2, h3⟩ := hb
      cases hown
      exact .inl ⟨ids, as, rfl, ho, wm, as', s, h1, h2, h3⟩
    | tagged id => exact .inr ⟨fun _ _ h => (nomatch h), key id hown⟩
  | leaf l id => exact .inr ⟨fun _ _ h => (nomatch h), key id hown⟩
  | seqOf id l => exact .inr ⟨fun _ _ h => (nomatch h), key id hown⟩
  | seq id l => exact .inr ⟨fun _ _ h => (nomatch h), key id hown⟩
  | set id l m => exact .inr ⟨fun _ _ h => (nomatch h), key id hown⟩

theorem own_close {tree : Tree} {R : RTy Key} {ts : List Spec.Tag} (hr : R.isRef = false) (h : R.Own tree ts) (σ : Key → Ty) :
    (R.close σ).own = ts.map idOf := by
  cases R with
  | ref k => cases hr
  | choice cid as =>
    cases cid with
    | untagged ids => cases h; rfl
    | tagged id => exact h
  | leaf l id => exact h
  | seqOf id l => exact h
  | seq id l => exact h
  | set id l m => exact h

/-- The identifiers of a named type. -/
theorem is_outer {lib : Lib} {tree : Tree} (hS : Supported tree) {R : RTy Key} {mod : Module} {t : AType} (hr : R.isRef = false) (h : R.Is lib tree mod t)
    (hp : Placed tree mod t) {f : Nat} {ids : List TagId} (hi : outerIds tree f mod t = .ok ids) : ids.map TagId.id = R.ids := by
  rcases is_cases hr h with ⟨ids0, as, rfl, ho, wm, as', s, hc, _, f', ids', h1, h2⟩ | ⟨_, tag, ts, ho, h1⟩
  · obtain ⟨f'', _, h3⟩ := outer_core f mod t ids wm _ ho hc hi
    rw [outerIds_unique h3 h1]
    exact h2.symm
  · rw [h1]
    exact outer_first f mod t ids tag ts (hp.safe hS) ho hi

theorem is_begins {lib : Lib} {tree : Tree} (hS : Supported tree) {R : RTy Key} {mod : Module} {t : AType} (hr : R.isRef = false) (h : R.Is lib tree mod t)
    (hk : CoreIn tree mod t) : ∀ id ∈ R.ids, ∃ tag, Outermost tree mod t tag ∧ id = idOf tag := by
  intro id hid
  rcases is_cases hr h with ⟨ids0, as, rfl, ho, wm, as', s, hc, _, f', ids', h1, h2⟩ | ⟨_, tag, ts, ho, h1⟩
  · rw [RTy.ids, h2] at hid
    obtain ⟨i, hi, rfl⟩ := List.mem_map.1 hid
    exact ⟨i.tag, outermost_nil ho hc (outer_sound hS f' wm _ ids' (hk _ _ hc) h1 i hi), TagId.id_eq i⟩
  · rw [h1] at hid
    exact ⟨tag, ownTags_outermost ho, List.mem_singleton.1 hid⟩

theorem is_ids_ok {lib : Lib} {tree : Tree} (hS : Supported tree) (hL : Legal tree) {R : RTy Key} {mod : Module} {t : AType} (hr : R.isRef = false)
    (h : R.Is lib tree mod t) (hk : Known tree mod t) :
    R.ids ≠ [] ∧ (∀ i ∈ R.ids, FastBer.Spec.idOk i) ∧ R.ids.Pairwise fun i j => i.tag ≠ j.tag := by
  rcases is_cases hr h with ⟨ids0, as, rfl, ho, wm, as', s, hc, _, f', ids', h1, h2⟩ | ⟨_, tag, ts, ho, h1⟩
  · have hoc := hk.core _ _ hc
    rw [RTy.ids, h2]
    refine ⟨by simpa using outerIds_ne (begins_of_safe (hS.tags _ _ hoc)) h1, ?_, ?_⟩
    · intro i hi
      obtain ⟨j, hj, rfl⟩ := List.mem_map.1 hi
      have := outermost_bound hL (outer_sound hS f' wm _ ids' hoc h1 j hj) hoc
      rw [TagId.id_eq]
      simp only [FastBer.Spec.idOk, idOf]
      omega
    · rw [List.pairwise_map]
      refine (outer_numbers hS hL f' wm _ ids' hoc h1).imp fun {a b} hab => ?_
      rw [TagId.id_eq, TagId.id_eq]
      simp only [idOf, TagId.tag]
      omega
  · rw [h1]
    have := hk.bound _ ho tag List.mem_cons_self
    refine ⟨by simp, ?_, by simp⟩
    intro i hi
    cases List.mem_singleton.1 hi
    simp only [FastBer.Spec.idOk, idOf]
    omega

section
variable {lib : Lib} {tree : Tree} {E : REnv Key} {σ : Key → Ty}

theorem hole_outer (hS : Supported tree) (hl : Linked lib tree E) (hσ : ∀ k, (σ k).outer = (E k).ids) : HolesOuter tree (hole lib tree E σ) := by
  rintro T mod t ⟨k, rfl, h1, _, h2⟩ f ids hi
  rw [hσ]
  exact is_outer hS (hl.proper k) h1 h2 hi

theorem hole_begins (hS : Supported tree) (hl : Linked lib tree E) (hσ : ∀ k, (σ k).outer = (E k).ids) : HolesBegin tree (hole lib tree E σ) := by
  rintro T mod t ⟨k, rfl, h1, h2, _⟩ id hid
  rw [hσ] at hid
  exact is_begins hS (hl.proper k) h1 h2.core id hid

mutual
theorem closed_close (σ : Key → Ty) : ∀ {T : RTy Key} {T' : Ty}, closed? T = some T' → T.close σ = T'
  | .leaf k id, T', h => by rw [closed?] at h; cases h; rfl
  | .seqOf id t, T', h => by
    rw [closed?] at h
    split at h
    · rename_i t' ht; cases h; rw [RTy.close, closed_close σ ht]
    · cases h
  | .seq id t, T', h => by
    rw [closed?] at h
    split at h
    · rename_i t' ht; cases h; rw [RTy.close, closedFields_close σ ht]
    · cases h
  | .set id e t, T', h => by
    rw [closed?] at h
    split at h
    · rename_i t' ht; cases h; rw [RTy.close, closedFields_close σ ht]
    · cases h
  | .choice id t, T', h => by
    rw [closed?] at h
    split at h
    · rename_i t' ht; cases h; rw [RTy.close, closedAlts_close σ ht]
    · cases h
  | .ref k, T', h => by rw [closed?] at h; cases h
theorem closedFields_close (σ : Key → Ty) : ∀ {T : RFields Key} {T' : Fields}, closedFields? T = some T' → T.close σ = T'
  | .nil, T', h => by rw [closedFields?] at h; cases h; rfl
  | .cons k ls t rest, T', h => by
    rw [closedFields?] at h
    split at h
    · rename_i t' r' ht hr; cases h; rw [RFields.close, closed_close σ ht, closedFields_close σ hr]
    · cases h
theorem closedAlts_close (σ : Key → Ty) : ∀ {T : RAlts Key} {T' : Alts}, closedAlts? T = some T' → T.close σ = T'
  | .nil, T', h => by rw [closedAlts?] at h; cases h; rfl
  | .cons ls t rest, T', h => by
    rw [closedAlts?] at h
    split at h
    · rename_i t' r' ht hr; cases h; rw [RAlts.close, closed_close σ ht, closedAlts_close σ hr]
    · cases h
end

mutual
theorem closed_ground : ∀ {T : RTy Key} {T' : Ty}, closed? T = some T' → T.Ground
  | .leaf k id, T', h => trivial
  | .seqOf id t, T', h => by
    rw [closed?] at h
    split at h
    · rename_i t' ht; show t.Ground; exact closed_ground ht
    · cases h
  | .seq id t, T', h => by
    rw [closed?] at h
    split at h
    · rename_i t' ht; show t.Ground; exact closedFields_ground ht
    · cases h
  | .set id e t, T', h => by
    rw [closed?] at h
    split at h
    · rename_i t' ht; show t.Ground; exact closedFields_ground ht
    · cases h
  | .choice id t, T', h => by
    rw [closed?] at h
    split at h
    · rename_i t' ht; show t.Ground; exact closedAlts_ground ht
    · cases h
  | .ref k, T', h => by rw [closed?] at h; cases h
theorem closedFields_ground : ∀ {T : RFields Key} {T' : Fields}, closedFields? T = some T' → T.Ground
  | .nil, T', h => trivial
  | .cons k ls t rest, T', h => by
    rw [closedFields?] at h
    split at h
    · rename_i t' r' ht hr; exact ⟨closed_ground ht, closedFields_ground hr⟩
    · cases h
theorem closedAlts_ground : ∀ {T : RAlts Key} {T' : Alts}, closedAlts? T = some T' → T.Ground
  | .nil, T', h => trivial
  | .cons ls t rest, T', h => by
    rw [closedAlts?] at h
    split at h
    · rename_i t' r' ht hr; exact ⟨closed_ground ht, closedAlts_ground hr⟩
    · cases h
end

theorem kind_close {T : RTy Key} {s : Slot} {k : Kind} (h : kindOf lib T s k) : kindFor lib (T.close σ) s k := by
  cases k with
  | mandatory => exact h
  | optional => exact h
  | default d =>
    obtain ⟨h1, T', v, h2, h3⟩ := h
    rw [closed_close σ h2]
    exact ⟨h1, v, h3⟩

/-- A part of a type. -/
theorem sub_outer (hS : Supported tree) (hH : HolesOuter tree (hole lib tree E σ)) {T : Ty} {mod : Module} {t : AType}
    (h : (T.Body (hole lib tree E σ) lib tree mod t ∧ T.Head tree mod t) ∨ hole lib tree E σ T mod t) (hp : Placed tree mod t) {ls : List Id}
    (ho : Outer tree mod t ls) : ls = T.outer := by
  obtain ⟨f, ids, h1, rfl⟩ := ho
  rcases h with h | h
  · rcases hp with hp | hp
    · exact outerIds_is hH hS f mod t T ids hp h h1
    · cases t with
      | prefixed c n k u =>
        rw [outer_prefixed h.2]
        cases f with
        | zero => rw [outerIds] at h1; cases h1
        | succ f => rw [outerIds] at h1; cases h1; simp [TagId.id_eq, TagId.tag, TagId.ofTag]
      | _ => cases hp
  · exact hH _ _ _ h f ids h1

theorem head_close {R : RTy Key} {mod : Module} {t : AType} (hr : R.isRef = false) (h : R.Head tree mod t) : (R.close σ).Head tree mod t := by
  obtain ⟨ts, h1, h2⟩ := h
  exact ⟨ts, h1, own_close hr h2 σ⟩

theorem placed_auto {mod : Module} {ts : List AType} (h : ∀ t ∈ ts, Occurs tree mod t) {t : AType} (ht : t ∈ autoTags mod ts) : Placed tree mod t := by
  rcases autoTags_mem ht with h1 | ⟨i, u, h1, h2, rfl⟩
  · exact .inl (h _ h1)
  · exact .inr rfl

theorem placed_sequence {mod : Module} {cs : List Comp} {e : Bool} (h : Occurs tree mod (.sequence cs e)) {s : Slot} (hs : s ∈ slots mod cs) :
    Placed tree mod s.type :=
  placed_auto (fun t ht => by obtain ⟨c, hc, rfl⟩ := List.mem_map.1 ht; exact .sequence h hc) (slots_mem hs)

theorem placed_set {mod : Module} {cs : List Comp} {e : Bool} (h : Occurs tree mod (.set cs e)) {s : Slot} (hs : s ∈ slots mod cs) :
    Placed tree mod s.type :=
  placed_auto (fun t ht => by obtain ⟨c, hc, rfl⟩ := List.mem_map.1 ht; exact .set h hc) (slots_mem hs)

theorem placed_choice {mod : Module} {as : List Named} {s : Storage} (h : Occurs tree mod (.choice as s)) {t : AType} (ht : t ∈ choices mod as) :
    Placed tree mod t :=
  placed_auto (fun t ht => by obtain ⟨c, hc, rfl⟩ := List.mem_map.1 ht; exact .choice h hc) ht

mutual
theorem body_close (hS : Supported tree) (hL : Legal tree) (hl : Linked lib tree E) (hσ : ∀ k, (σ k).outer = (E k).ids) :
    ∀ (R : RTy Key) (mod : Module) (t : AType), R.isRef = false → R.Body lib tree mod t → CoreIn tree mod t →
    (R.close σ).Body (hole lib tree E σ) lib tree mod t
  | .leaf l id, mod, t, _, h, _ => h
  | .seqOf id T, mod, t, _, ⟨wm, n, u, s, hc, hb, hh⟩, hk => by
    have hoc : Occurs tree wm u := by
      rcases hc with hc | hc
      · exact .seqOf (hk _ _ hc)
      · exact .setOf (hk _ _ hc)
    exact ⟨wm, n, u, s, hc, sub_close hS hL hl hσ T wm u hb hh (known_of_occurs hL hoc) (.inl hoc)⟩
  | .seq id fs, mod, t, _, ⟨wm, cs, e, hc, hb⟩, hk =>
    ⟨wm, cs, e, hc, fields_close hS hL hl hσ fs _ wm _ hb (fun s hs => ⟨known_sequence hL (hk _ _ hc) hs, placed_sequence (hk _ _ hc) hs⟩)⟩
  | .set id ext fs, mod, t, _, ⟨wm, cs, hc, hb⟩, hk =>
    ⟨wm, cs, hc, fields_close hS hL hl hσ fs _ wm _ hb (fun s hs => ⟨known_set hL (hk _ _ hc) hs, placed_set (hk _ _ hc) hs⟩)⟩
  | .choice cid as, mod, t, _, ⟨wm, as', s, hc, hb, hids⟩, hk => by
    have hoc := hk _ _ hc
    have hb' := alts_close hS hL hl hσ as wm _ hb (fun u hu => ⟨known_choice hL hoc hu, placed_choice hoc hu⟩)
    refine ⟨wm, as', s, hc, hb', ?_⟩
    cases cid with
    | tagged id => trivial
    | untagged ids =>
      obtain ⟨f, ids', h1, rfl⟩ := hids
      exact outerIds_is (hole_outer hS hl hσ) hS f wm (.choice as' s) (.choice (.untagged (as.close σ).outer) (as.close σ)) ids' hoc
        ⟨⟨wm, as', s, .here rfl, hb', rfl⟩, [], .choice .., rfl⟩ h1
  | .ref k, mod, t, hr, _, _ => by cases hr
theorem sub_close (hS : Supported tree) (hL : Legal tree) (hl : Linked lib tree E) (hσ : ∀ k, (σ k).outer = (E k).ids) :
    ∀ (R : RTy Key) (mod : Module) (t : AType), R.Body lib tree mod t → R.Head tree mod t → Known tree mod t → Placed tree mod t →
    ((R.close σ).Body (hole lib tree E σ) lib tree mod t ∧ (R.close σ).Head tree mod t) ∨ hole lib tree E σ (R.close σ) mod t
  | .leaf l id, mod, t, h, hh, _, _ => .inl ⟨h, head_close rfl hh⟩
  | .seqOf id T, mod, t, ⟨wm, n, u, s, hc, hb, hh⟩, hh', hk, _ => by
    have hoc : Occurs tree wm u := by
      rcases hc with hc | hc
      · exact .seqOf (hk.core _ _ hc)
      · exact .setOf (hk.core _ _ hc)
    exact .inl ⟨⟨wm, n, u, s, hc, sub_close hS hL hl hσ T wm u hb hh (known_of_occurs hL hoc) (.inl hoc)⟩, head_close (R := .seqOf id T) rfl hh'⟩
  | .seq id fs, mod, t, ⟨wm, cs, e, hc, hb⟩, hh, hk, _ =>
    .inl ⟨⟨wm, cs, e, hc, fields_close hS hL hl hσ fs _ wm _ hb (fun s hs => ⟨known_sequence hL (hk.core _ _ hc) hs, placed_sequence (hk.core _ _ hc) hs⟩)⟩,
      head_close (R := .seq id fs) rfl hh⟩
  | .set id ext fs, mod, t, ⟨wm, cs, hc, hb⟩, hh, hk, _ =>
    .inl ⟨⟨wm, cs, hc, fields_close hS hL hl hσ fs _ wm _ hb (fun s hs => ⟨known_set hL (hk.core _ _ hc) hs, placed_set (hk.core _ _ hc) hs⟩)⟩,
      head_close (R := .set id ext fs) rfl hh⟩
  | .choice cid as, mod, t, ⟨wm, as', s, hc, hb, hids⟩, hh, hk, _ => by
    have hoc := hk.core _ _ hc
    have hb' := alts_close hS hL hl hσ as wm _ hb (fun u hu => ⟨known_choice hL hoc hu, placed_choice hoc hu⟩)
    refine .inl ⟨⟨wm, as', s, hc, hb', ?_⟩, head_close (R := .choice cid as) rfl hh⟩
    cases cid with
    | tagged id => trivial
    | untagged ids =>
      obtain ⟨f, ids', h1, rfl⟩ := hids
      exact outerIds_is (hole_outer hS hl hσ) hS f wm (.choice as' s) (.choice (.untagged (as.close σ).outer) (as.close σ)) ids' hoc
        ⟨⟨wm, as', s, .here rfl, hb', rfl⟩, [], .choice .., rfl⟩ h1
  | .ref k, mod, t, h, hh, hk, hp => .inr ⟨k, rfl, hl.ref k mod t ⟨h, hh⟩ hk.bound, hk, hp⟩
theorem fields_close (hS : Supported tree) (hL : Legal tree) (hl : Linked lib tree E) (hσ : ∀ k, (σ k).outer = (E k).ids) :
    ∀ (fs : RFields Key) (all : Bool) (mod : Module) (ss : List Slot), fs.Body lib tree all mod ss →
    (∀ s ∈ ss, Known tree mod s.type ∧ Placed tree mod s.type) → (fs.close σ).Body (hole lib tree E σ) lib tree all mod ss
  | .nil, _, _, _, h, _ => h
  | .cons k ls T rest, all, mod, ss, ⟨s, ss', hss, hk, hls, h1, h2, h3⟩, hkn => by
    subst hss
    obtain ⟨hk1, hp1⟩ := hkn s List.mem_cons_self
    have hsub := sub_close hS hL hl hσ T mod s.type h1 h2 hk1 hp1
    exact ⟨s, ss', rfl, kind_close hk, fun hm => sub_outer hS (hole_outer hS hl hσ) hsub hp1 (hls hm), hsub,
      fields_close hS hL hl hσ rest all mod ss' h3 fun s hs => hkn s (List.mem_cons_of_mem _ hs)⟩
theorem alts_close (hS : Supported tree) (hL : Legal tree) (hl : Linked lib tree E) (hσ : ∀ k, (σ k).outer = (E k).ids) :
    ∀ (as : RAlts Key) (mod : Module) (ts : List AType), as.Body lib tree mod ts →
    (∀ t ∈ ts, Known tree mod t ∧ Placed tree mod t) → (as.close σ).Body (hole lib tree E σ) lib tree mod ts
  | .nil, _, _, h, _ => h
  | .cons ls T rest, mod, ts, ⟨t, ts', hts, hls, h1, h2, h3⟩, hkn => by
    subst hts
    obtain ⟨hk1, hp1⟩ := hkn t List.mem_cons_self
    have hsub := sub_close hS hL hl hσ T mod t h1 h2 hk1 hp1
    exact ⟨t, ts', rfl, sub_outer hS (hole_outer hS hl hσ) hsub hp1 hls, hsub,
      alts_close hS hL hl hσ rest mod ts' h3 fun t ht => hkn t (List.mem_cons_of_mem _ ht)⟩
end

end

end FastBer.Ast.Fwd
