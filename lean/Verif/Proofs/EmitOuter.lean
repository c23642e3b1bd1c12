import Verif.Proofs.EmitTags
/-!
# The identifiers a generated decoder looks for are those its types can begin with
-/
namespace FastBer.Ast
open Spec

theorem target_mem {tree : Tree} {mod wm : Module} {m : Option Name} {ref : Name} {t : AType} (h : target tree mod m ref = some (wm, t)) :
    wm ∈ tree.modules ∧ wm.name = m.getD mod.name ∧ ∃ a ∈ wm.assignments, a.name = ref ∧ a.body = .type t := by
  unfold target at h
  cases h1 : tree.modules.find? (·.name == m.getD mod.name) with
  | none => rw [h1] at h; cases h
  | some wm' =>
    rw [h1] at h
    simp only [Option.bind_eq_bind, Option.bind_some] at h
    cases h2 : wm'.assignments.find? (·.name == ref) with
    | none => rw [h2] at h; cases h
    | some a =>
      rw [h2] at h
      simp only [Option.bind_some] at h
      split at h
      · rename_i t' hb
        cases h
        exact ⟨List.mem_of_find?_eq_some h1, by simpa using List.find?_some h1, a, List.mem_of_find?_eq_some h2,
          by simpa using List.find?_some h2, hb⟩
      · cases h

theorem occurs_target {tree : Tree} {mod wm : Module} {m : Option Name} {ref : Name} {t : AType} (h : target tree mod m ref = some (wm, t)) :
    Occurs tree wm t := by
  obtain ⟨h1, _, a, h2, _, h3⟩ := target_mem h
  exact .assigned h1 h2 h3

theorem occurs_core {tree : Tree} {mod wm : Module} {t u : AType} (h : Core tree mod t wm u) (ho : Occurs tree mod t) : Occurs tree wm u := by
  induction h with
  | here _ => exact ho
  | prefixed _ ih => exact ih (.prefixed ho)
  | reference ht _ ih => exact ih (occurs_target ht)

theorem _root_.FastBer.Ty.Is.target {H : Holes} {lib : Lib} {tree : Tree} {T : Ty} {mod wm : Module} {m : Option Name} {ref : Name} {ps : List AType} {t : AType}
    (h : T.Is H lib tree mod (.defined m ref ps)) (ht : target tree mod m ref = some (wm, t)) : T.Is H lib tree wm t := by
  refine ⟨h.1.of_core fun w u hc => ?_, ?_⟩
  · cases hc with
    | here h => cases h
    | reference ht' hc => rw [ht] at ht'; cases ht'; exact hc
  · obtain ⟨ts, ho, he⟩ := h.2
    cases ho with
    | reference ht' ho => rw [ht] at ht'; cases ht'; exact ⟨ts, ho, he⟩

theorem _root_.FastBer.Ty.Is.reference {H : Holes} {lib : Lib} {tree : Tree} {T : Ty} {mod wm : Module} {m : Option Name} {ref : Name} (ps : List AType) {t : AType}
    (h : T.Is H lib tree wm t) (ht : Spec.target tree mod m ref = some (wm, t)) : T.Is H lib tree mod (.defined m ref ps) := by
  refine ⟨h.1.of_core fun w u hc => .reference ht hc, ?_⟩
  obtain ⟨ts, ho, he⟩ := h.2
  exact ⟨ts, .reference ht ho, he⟩

/-! ## Automatic tags -/

theorem all_untagged {α : Type} {f : α → AType} {l : List α} (h : ∀ a ∈ l, hasTag (f a) = false) : (l.map f).all (fun t => !hasTag t) = true := by
  simp only [List.all_map, List.all_eq_true, Function.comp]
  intro a ha
  rw [h a ha]; rfl

theorem autoTags_automatic {α : Type} {mod : Module} {f : α → AType} {l : List α} (hm : mod.tagging = .automatic)
    (h : ∀ a ∈ l, hasTag (f a) = false) : autoTags mod (l.map f) = l.mapIdx fun i a => .prefixed .contextSpecific i .automatic (f a) := by
  unfold autoTags
  rw [if_pos ⟨hm, all_untagged h⟩]
  apply List.ext_getElem?
  intro i
  simp only [List.getElem?_mapIdx, List.getElem?_map, Option.map_map]
  rfl

theorem autoTags_other {mod : Module} {ts : List AType} (hm : mod.tagging ≠ .automatic) : autoTags mod ts = ts := by
  unfold autoTags
  rw [if_neg fun h => hm h.1]

theorem autoTags_length (mod : Module) (ts : List AType) : (autoTags mod ts).length = ts.length := by
  unfold autoTags
  split <;> simp

/-- Head of a tagged type. -/
theorem outer_prefixed {tree : Tree} {T : Ty} {mod : Module} {c : Cls} {n : Nat} {k : TagMode} {t : AType}
    (h : T.Head tree mod (.prefixed c n k t)) : T.outer = [idOf (c, n)] := by
  obtain ⟨ts, ho, he⟩ := h
  cases ho with
  | explicit_ => exact Ty.outer_own he
  | implicit => exact Ty.outer_own he

/-- What stands for a type begins like it. -/
def HolesOuter (tree : Tree) (H : Holes) : Prop :=
  ∀ T mod t, H T mod t → ∀ f ids, outerIds tree f mod t = .ok ids → ids.map TagId.id = T.outer

theorem noHoles_outer (tree : Tree) : HolesOuter tree noHoles := fun _ _ _ h => h.elim

theorem alts_outer_auto {H : Holes} {lib : Lib} {tree : Tree} (hH : HolesOuter tree H) {mod : Module} : ∀ (l : List Named) (i : Nat) (as : Alts),
    as.Body H lib tree mod (l.mapIdx fun j a => .prefixed .contextSpecific (j + i) .automatic a.type) →
    as.outer = (List.range' i l.length).map fun j => idOf (.contextSpecific, j)
  | [], i, .nil, h => rfl
  | [], i, .cons _ _ _, h => by
    obtain ⟨t, ts, h, _⟩ := h
    cases h
  | a :: l, i, .nil, h => by rw [Alts.Body] at h; simp at h
  | a :: l, i, .cons ls T rest, h => by
    obtain ⟨t, ts, h1, h2, h34, h5⟩ := h
    rw [List.mapIdx_cons] at h1
    cases h1
    rw [Nat.zero_add] at h34
    have h4 : T.outer = [idOf (.contextSpecific, i)] := by
      rcases h34 with ⟨_, h4⟩ | h4
      · exact outer_prefixed h4
      · rw [← hH _ _ _ h4 1 _ (by rw [outerIds])]; simp [TagId.id_eq, TagId.tag, TagId.ofTag]
    rw [show (fun j (a : Named) => AType.prefixed .contextSpecific (j + 1 + i) .automatic a.type) =
      fun j (a : Named) => AType.prefixed .contextSpecific (j + (i + 1)) .automatic a.type from by
        funext j a; rw [Nat.add_assoc, Nat.add_comm 1 i]] at h5
    rw [Alts.outer, h4, List.length_cons, List.range'_succ, List.map_cons, alts_outer_auto hH l (i + 1) rest h5]
    rfl

theorem alts_outer_map {H : Holes} {lib : Lib} {tree : Tree} (hH : HolesOuter tree H) {mod : Module} {f : Nat}
    (l : List Named) : ∀ (as : Alts) (idss : List (List TagId)),
    (∀ a ∈ l, ∀ (T : Ty) (ids : List TagId), T.Is H lib tree mod a.type → outerIds tree f mod a.type = .ok ids → ids.map TagId.id = T.outer) →
    as.Body H lib tree mod (l.map Named.type) → (l.mapM fun a => outerIds tree f mod a.type) = .ok idss →
    idss.flatten.map TagId.id = as.outer := by
  induction l with
  | nil =>
    intro as idss _ h hm
    cases as with
    | nil => rw [List.mapM_nil] at hm; cases hm; rfl
    | cons _ _ _ => obtain ⟨t, ts, h, _⟩ := h; cases h
  | cons a l ih =>
    intro as idss hi h hm
    cases as with
    | nil => rw [Alts.Body] at h; cases h
    | cons ls T rest =>
      obtain ⟨t, ts, h1, h2, h34, h5⟩ := h
      rw [List.map_cons] at h1
      cases h1
      rw [List.mapM_cons] at hm
      obtain ⟨x, hx, hm⟩ := Res.bind_eq_ok.1 hm
      obtain ⟨xs, hxs, hm⟩ := Res.bind_eq_ok.1 hm
      cases hm
      have hx' : x.map TagId.id = T.outer := by
        rcases h34 with h3 | h3
        · exact hi a List.mem_cons_self T x h3 hx
        · exact hH _ _ _ h3 _ _ hx
      rw [Alts.outer, List.flatten_cons, List.map_append, hx',
        ih rest xs (fun b hb => hi b (List.mem_cons_of_mem _ hb)) h5 hxs]

/-- `outer_identifiers` lists the identifiers an encoding can begin with. -/
theorem outerIds_is {H : Holes} {lib : Lib} {tree : Tree} (hH : HolesOuter tree H) (hS : Supported tree) : ∀ (f : Nat) (mod : Module) (t : AType) (T : Ty) (ids : List TagId),
    Occurs tree mod t → T.Is H lib tree mod t → outerIds tree f mod t = .ok ids → ids.map TagId.id = T.outer
  | 0, _, _, _, _, _, _, h => by rw [outerIds] at h; cases h
  | f + 1, mod, t, T, ids, hoc, hT, h => by
    have huniv : ∀ n, T.own = ([(Cls.universal, n)] : List Spec.Tag).map idOf → (([TagId.ofUniversal n] : List TagId).map TagId.id) = T.outer := by
      intro n hn
      rw [Ty.outer_own hn]
      rfl
    obtain ⟨ts, ho, he⟩ := hT.2
    cases t with
    | leaf k =>
      have hk := hS.tags _ _ hoc
      cases hk with
      | leaf hk =>
        obtain ⟨n, hn, hu⟩ := known_tag hk
        rw [outerIds, if_neg (by rintro rfl; cases hk), hn] at h
        cases h
        cases ho with
        | leaf hu' => rw [hu] at hu'; cases hu'; exact huniv _ he
    | sequence cs e => rw [outerIds] at h; cases h; cases ho; exact huniv _ he
    | set cs e => rw [outerIds] at h; cases h; cases ho; exact huniv _ he
    | seqOf n t s => rw [outerIds] at h; cases h; cases ho; exact huniv _ he
    | setOf n t s => rw [outerIds] at h; cases h; cases ho; exact huniv _ he
    | prefixed c n k t =>
      rw [outerIds] at h; cases h
      rw [outer_prefixed hT.2, List.map_cons, TagId.id_eq]; rfl
    | objField m c fs => cases ho
    | defined m ref ps =>
      rw [outerIds] at h
      obtain ⟨⟨wm, t'⟩, h1, h2⟩ := Res.bind_eq_ok.1 h
      have ht := followRef_ok.1 h1
      exact outerIds_is hH hS f wm t' T ids (occurs_target ht) (hT.target ht) h2
    | choice as s =>
      cases ho
      cases T with
      | choice cid as' =>
        cases cid with
        | tagged id => cases id <;> simp [Ty.own, Ident.list] at he
        | untagged cids =>
          obtain ⟨wm, as'', s', hc, hb, _⟩ := hT.1
          cases hc
          rw [Ty.outer]
          rw [outerIds] at h
          by_cases hm : mod.tagging = .automatic
          · rw [if_pos hm] at h
            cases h
            rw [choices, autoTags_automatic hm fun a ha => hS.autoUntagged _ _ _ (.choice hoc ha) hm] at hb
            rw [alts_outer_auto hH as 0 as' (by simpa using hb), List.range_eq_range', List.map_map]
            apply List.map_congr_left
            intro j _
            simp [TagId.id_eq, TagId.tag, TagId.ofTag]
          · rw [if_neg hm] at h
            obtain ⟨idss, h1, h2⟩ := Res.bind_eq_ok.1 h
            cases h2
            rw [choices, autoTags_other hm] at hb
            exact alts_outer_map hH as as' idss (fun a ha T' ids' hT' hi => outerIds_is hH hS f mod a.type T' ids' (.choice hoc ha) hT' hi) hb h1
      | leaf l id => cases id <;> simp [Ty.own, Ident.list] at he
      | seqOf id _ => cases id <;> simp [Ty.own, Ident.list] at he
      | seq id _ => cases id <;> simp [Ty.own, Ident.list] at he
      | set id _ _ => cases id <;> simp [Ty.own, Ident.list] at he

end FastBer.Ast
