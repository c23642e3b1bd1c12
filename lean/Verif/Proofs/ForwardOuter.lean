import Verif.Proofs.Legal
/-!
# The identifiers `outer_identifiers` gives, in schemas that may be circular
-/
namespace FastBer.Ast
open Spec

/-- All calls ended. -/
theorem mapM_ids {tree : Tree} {mod : Module} {f : Nat} : ∀ {as : List Named} {idss : List (List TagId)},
    (as.mapM fun a => outerIds tree f mod a.type) = .ok idss → ∀ (i : Nat) (ids : List TagId), idss[i]? = some ids →
      ∃ a, as[i]? = some a ∧ outerIds tree f mod a.type = .ok ids
  | [], idss, h, i, ids, hi => by
    rw [List.mapM_nil] at h
    cases h
    cases hi
  | a :: as, idss, h, i, ids, hi => by
    rw [List.mapM_cons] at h
    obtain ⟨x, h1, h⟩ := Res.bind_eq_ok.1 h
    obtain ⟨xs, h2, h⟩ := Res.bind_eq_ok.1 h
    cases h
    cases i with
    | zero => cases hi; exact ⟨a, rfl, h1⟩
    | succ i => exact mapM_ids h2 i ids hi

theorem mapM_each {tree : Tree} {mod : Module} {f : Nat} : ∀ {as : List Named} {idss : List (List TagId)},
    (as.mapM fun a => outerIds tree f mod a.type) = .ok idss → ∀ a ∈ as, ∃ ids, outerIds tree f mod a.type = .ok ids
  | a :: as, idss, h, b, hb => by
    rw [List.mapM_cons] at h
    obtain ⟨x, h1, h⟩ := Res.bind_eq_ok.1 h
    obtain ⟨xs, h2, h⟩ := Res.bind_eq_ok.1 h
    rcases List.mem_cons.1 hb with rfl | hb
    · exact ⟨x, h1⟩
    · exact mapM_each h2 b hb

theorem automatic_of {tree : Tree} (hS : Supported tree) {mod : Module} {as : List Named} {s : Storage} (hoc : Occurs tree mod (.choice as s))
    (hm : mod.tagging = .automatic) : AutomaticallyTagged mod as := by
  refine ⟨hm, fun a ha c n k u he => ?_⟩
  have := hS.autoUntagged _ _ _ (.choice hoc ha) hm
  rw [he] at this
  cases this

/-- They are tags the type can begin with. -/
theorem outer_sound {tree : Tree} (hS : Supported tree) : ∀ (f : Nat) (mod : Module) (t : AType) (ids : List TagId), Occurs tree mod t →
    outerIds tree f mod t = .ok ids → ∀ i ∈ ids, Outermost tree mod t i.tag
  | 0, _, _, _, _, h => by rw [outerIds] at h; cases h
  | f + 1, mod, t, ids, hoc, h => by
    intro i hi
    cases t with
    | leaf k =>
      have hk := hS.tags _ _ hoc
      cases hk with
      | leaf hk =>
        obtain ⟨n, hn, hu⟩ := known_tag hk
        rw [outerIds, if_neg (by rintro rfl; cases hk), hn] at h
        cases h
        cases List.mem_singleton.1 hi
        exact .leaf hu
    | sequence cs e => rw [outerIds] at h; cases h; cases List.mem_singleton.1 hi; exact .sequence ..
    | set cs e => rw [outerIds] at h; cases h; cases List.mem_singleton.1 hi; exact .set ..
    | seqOf n t s => rw [outerIds] at h; cases h; cases List.mem_singleton.1 hi; exact .seqOf ..
    | setOf n t s => rw [outerIds] at h; cases h; cases List.mem_singleton.1 hi; exact .setOf ..
    | prefixed c n k t => rw [outerIds] at h; cases h; cases List.mem_singleton.1 hi; exact .prefixed ..
    | objField m c fs => rw [outerIds] at h; cases h; cases hi
    | defined m ref ps =>
      rw [outerIds] at h
      obtain ⟨⟨wm, t'⟩, h1, h2⟩ := Res.bind_eq_ok.1 h
      have ht := followRef_ok.1 h1
      exact .reference ht (outer_sound hS f wm t' ids (occurs_target ht) h2 i hi)
    | choice as s =>
      rw [outerIds] at h
      by_cases hm : mod.tagging = .automatic
      · rw [if_pos hm] at h
        cases h
        obtain ⟨j, hj, rfl⟩ := List.mem_map.1 hi
        exact .automaticChoice (automatic_of hS hoc hm) (List.mem_range.1 hj)
      · rw [if_neg hm] at h
        obtain ⟨idss, h1, h2⟩ := Res.bind_eq_ok.1 h
        cases h2
        obtain ⟨l, hl, hil⟩ := List.mem_flatten.1 hi
        obtain ⟨j, hj⟩ := List.getElem?_of_mem hl
        obtain ⟨a, ha, hok⟩ := mapM_ids h1 j l hj
        have ham := List.mem_of_getElem? ha
        exact .choice (fun h => hm h.1) ham (outer_sound hS f mod a.type l (.choice hoc ham) hok i hil)

/-- A type begins with tags the library can write. -/
theorem outermost_bound {tree : Tree} (hL : Legal tree) {mod : Module} {t : AType} {tag : Spec.Tag} (h : Outermost tree mod t tag)
    (hoc : Occurs tree mod t) : tag.2 < 2 ^ 63 := by
  induction h with
  | leaf h => exact universal_bound hL hoc h
  | sequence | seqOf | set | setOf => decide
  | prefixed => exact hL.numbers _ _ _ _ _ hoc
  | choice _ ha _ ih => exact ih (.choice hoc ha)
  | automaticChoice _ hi => exact Nat.lt_trans hi (hL.choiceSize _ _ _ hoc)
  | reference ht _ ih => exact ih (occurs_target ht)

theorem pairwise_flatten {α : Type} {R : α → α → Prop} : ∀ {ls : List (List α)}, (∀ l ∈ ls, l.Pairwise R) →
    (∀ (i j : Nat) (a b : List α), i < j → ls[i]? = some a → ls[j]? = some b → ∀ x ∈ a, ∀ y ∈ b, R x y) → ls.flatten.Pairwise R
  | [], _, _ => .nil
  | l :: ls, h1, h2 => by
    rw [List.flatten_cons, List.pairwise_append]
    refine ⟨h1 l List.mem_cons_self, pairwise_flatten (fun l h => h1 l (List.mem_cons_of_mem _ h)) (fun i j a b hij hi hj => h2 (i + 1) (j + 1) a b (by omega) hi hj), ?_⟩
    intro x hx y hy
    obtain ⟨m, hm, hym⟩ := List.mem_flatten.1 hy
    obtain ⟨j, hj⟩ := List.getElem?_of_mem hm
    exact h2 0 (j + 1) l m (by omega) rfl hj x hx y hym

/-- Their numbers are distinct. -/
theorem outer_numbers {tree : Tree} (hS : Supported tree) (hL : Legal tree) : ∀ (f : Nat) (mod : Module) (t : AType) (ids : List TagId), Occurs tree mod t →
    outerIds tree f mod t = .ok ids → ids.Pairwise fun i j => i.num ≠ j.num
  | 0, _, _, _, _, h => by rw [outerIds] at h; cases h
  | f + 1, mod, t, ids, hoc, h => by
    cases t with
    | leaf k =>
      have hk := hS.tags _ _ hoc
      cases hk with
      | leaf hk =>
        obtain ⟨n, hn, hu⟩ := known_tag hk
        rw [outerIds, if_neg (by rintro rfl; cases hk), hn] at h
        cases h
        simp
    | sequence cs e => rw [outerIds] at h; cases h; simp
    | set cs e => rw [outerIds] at h; cases h; simp
    | seqOf n t s => rw [outerIds] at h; cases h; simp
    | setOf n t s => rw [outerIds] at h; cases h; simp
    | prefixed c n k t => rw [outerIds] at h; cases h; simp
    | objField m c fs => rw [outerIds] at h; cases h; simp
    | defined m ref ps =>
      rw [outerIds] at h
      obtain ⟨⟨wm, t'⟩, h1, h2⟩ := Res.bind_eq_ok.1 h
      exact outer_numbers hS hL f wm t' ids (occurs_target (followRef_ok.1 h1)) h2
    | choice as s =>
      rw [outerIds] at h
      by_cases hm : mod.tagging = .automatic
      · rw [if_pos hm] at h
        cases h
        rw [List.pairwise_map]
        exact (List.nodup_range (n := as.length)).imp fun h => h
      · rw [if_neg hm] at h
        obtain ⟨idss, h1, h2⟩ := Res.bind_eq_ok.1 h
        cases h2
        have hc := hL.choices _ _ _ hoc
        rw [choices, autoTags_other hm] at hc
        refine pairwise_flatten ?_ ?_
        · intro l hl
          obtain ⟨j, hj⟩ := List.getElem?_of_mem hl
          obtain ⟨a, ha, hok⟩ := mapM_ids h1 j l hj
          exact outer_numbers hS hL f mod a.type l (.choice hoc (List.mem_of_getElem? ha)) hok
        · intro i j a b hij hi hj x hx y hy
          obtain ⟨u, hu, hu'⟩ := mapM_ids h1 i a hi
          obtain ⟨w, hw, hw'⟩ := mapM_ids h1 j b hj
          exact hc i j u.type w.type x.tag y.tag hij (by simp [hu]) (by simp [hw])
            (outer_sound hS f mod _ a (.choice hoc (List.mem_of_getElem? hu)) hu' x hx)
            (outer_sound hS f mod _ b (.choice hoc (List.mem_of_getElem? hw)) hw' y hy)

/-- A type with tags of its own begins with the first of them. -/
theorem outer_first {tree : Tree} : ∀ (f : Nat) (mod : Module) (t : AType) (ids : List TagId) (tag : Spec.Tag) (ts : List Spec.Tag),
    TagSafe tree mod t ∨ hasTag t = true → OwnTags tree mod t (tag :: ts) → outerIds tree f mod t = .ok ids → ids.map TagId.id = [idOf tag]
  | 0, _, _, _, _, _, _, _, h => by rw [outerIds] at h; cases h
  | f + 1, mod, t, ids, tag, ts, hk, ho, h => by
    cases t with
    | leaf k =>
      rcases hk with hk | hk
      case inr => cases hk
      cases hk with
      | leaf hk =>
        obtain ⟨n, hn, hu⟩ := known_tag hk
        rw [outerIds, if_neg (by rintro rfl; cases hk), hn] at h
        cases h
        cases ho with
        | leaf hu' => rw [hu] at hu'; cases hu'; rfl
    | sequence cs e => rw [outerIds] at h; cases h; cases ho; rfl
    | set cs e => rw [outerIds] at h; cases h; cases ho; rfl
    | seqOf n t s => rw [outerIds] at h; cases h; cases ho; rfl
    | setOf n t s => rw [outerIds] at h; cases h; cases ho; rfl
    | prefixed c n k t =>
      rw [outerIds] at h; cases h
      cases ho with
      | explicit_ => simp [TagId.id_eq, TagId.tag, TagId.ofTag]
      | implicit => simp [TagId.id_eq, TagId.tag, TagId.ofTag]
    | objField m c fs => cases ho
    | defined m ref ps =>
      rcases hk with hk | hk
      case inr => cases hk
      rw [outerIds] at h
      obtain ⟨⟨wm, t'⟩, h1, h2⟩ := Res.bind_eq_ok.1 h
      have ht := followRef_ok.1 h1
      cases hk with
      | reference ht' hk =>
        rw [ht] at ht'
        cases ht'
        cases ho with
        | reference ht' ho =>
          rw [ht] at ht'
          cases ht'
          exact outer_first f wm t' ids tag ts (.inl hk) ho h2
    | choice as s => cases ho

/-- A type without tags of its own begins like its CHOICE. -/
theorem outer_core {tree : Tree} : ∀ (f : Nat) (mod : Module) (t : AType) (ids : List TagId) (wm : Module) (u : AType),
    OwnTags tree mod t [] → Core tree mod t wm u → outerIds tree f mod t = .ok ids → ∃ f', f' ≤ f ∧ outerIds tree f' wm u = .ok ids
  | 0, _, _, _, _, _, _, _, h => by rw [outerIds] at h; cases h
  | f + 1, mod, t, ids, wm, u, ho, hc, h => by
    cases ho with
    | choice =>
      cases hc
      exact ⟨f + 1, Nat.le_refl _, h⟩
    | @reference _ m ref ps w t' _ ht ho =>
      cases hc with
      | here hx => cases hx
      | reference ht' hc =>
        rw [ht] at ht'
        cases ht'
        rw [outerIds] at h
        obtain ⟨⟨wm', t''⟩, h1, h2⟩ := Res.bind_eq_ok.1 h
        have ht'' := followRef_ok.1 h1
        rw [ht] at ht''
        cases ht''
        obtain ⟨f', h3, h4⟩ := outer_core f w t' ids wm u ho hc h2
        exact ⟨f', by omega, h4⟩

end FastBer.Ast
