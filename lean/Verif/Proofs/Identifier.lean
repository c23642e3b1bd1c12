import Verif.Model.Identifier
import Verif.Spec.Tags
import Verif.Proofs.Resolve
/-! Lemmas about `identifier`, `outerIds`, `checkSequence`, `checkSet`. -/
namespace FastBer.Ast
open Spec

instance : LawfulMonad Res := LawfulMonad.mk'
  (id_map := by intro α x; cases x <;> rfl)
  (pure_bind := by intros; rfl)
  (bind_assoc := by intro α β γ x f g; cases x <;> rfl)

/-- Class and number of an identifier. -/
def TagId.tag (i : TagId) : Tag := (i.cls, i.num)

theorem followRef_ok {tree : Tree} {mod : Module} {m : Option Name} {ref : Name} {r : Module × AType} :
    followRef tree mod m ref = .ok r ↔ target tree mod m ref = some r := by
  unfold followRef target findModule
  cases hm : tree.modules.find? (·.name == m.getD mod.name) with
  | none => simp
  | some wm =>
    simp only [Res.ok_bind, Option.bind_eq_bind, Option.bind_some]
    unfold findAssignment
    cases ha : wm.assignments.find? (·.name == ref) with
    | none => simp
    | some a =>
      simp only [Res.ok_bind, Option.bind_some]
      cases a.body <;> simp

theorem followRef_cases (tree : Tree) (mod : Module) (m : Option Name) (ref : Name) :
    (∃ r, followRef tree mod m ref = .ok r) ∨ ∃ e, followRef tree mod m ref = .throw e := by
  unfold followRef
  rcases findModule_cases tree (m.getD mod.name) with ⟨wm, hw⟩ | ⟨e, hw⟩
  · rcases findAssignment_cases wm ref with ⟨a, ha⟩ | ⟨e, ha⟩
    · rw [hw, Res.ok_bind, ha, Res.ok_bind]; split
      · exact .inl ⟨_, rfl⟩
      · exact .inr ⟨_, rfl⟩
    · exact .inr ⟨e, by rw [hw, Res.ok_bind, ha]; rfl⟩
  · exact .inr ⟨e, by rw [hw]; rfl⟩

/-! ## More calls allowed, same result -/

/-- `r'` is at least as defined as `r`. -/
def Res.le {α : Type} (r r' : Res α) : Prop := r = .loop ∨ r = r'

theorem Res.le_refl {α : Type} (r : Res α) : r.le r := .inr rfl

theorem Res.le_bind {α β : Type} {r r' : Res α} {f f' : α → Res β} (h : r.le r') (hf : ∀ a, (f a).le (f' a)) :
    (r >>= f).le (r' >>= f') := by
  rcases h with rfl | rfl
  · exact .inl rfl
  · cases r with
    | ok a => exact hf a
    | throw e => exact .inr rfl
    | ub => exact .inr rfl
    | loop => exact .inl rfl

theorem Res.le_mapM {α β : Type} {f f' : α → Res β} (l : List α) (h : ∀ a ∈ l, (f a).le (f' a)) :
    (l.mapM f).le (l.mapM f') := by
  induction l with
  | nil => exact .inr rfl
  | cons a l ih =>
    rw [List.mapM_cons, List.mapM_cons]
    exact Res.le_bind (h a (by simp)) fun _ => Res.le_bind (ih fun b hb => h b (by simp [hb])) fun _ => Res.le_refl _

theorem Res.le_ok {α : Type} {r r' : Res α} (h : r.le r') {a : α} (ha : r = .ok a) : r' = .ok a := by
  rcases h with h | h
  · rw [h] at ha; cases ha
  · rw [← h, ha]

theorem outerIds_mono (tree : Tree) : ∀ (f : Nat) (mod : Module) (t : AType),
    (outerIds tree f mod t).le (outerIds tree (f + 1) mod t) := by
  intro f
  induction f with
  | zero => intro mod t; rw [outerIds]; exact .inl rfl
  | succ f ih =>
    intro mod t
    cases t <;> rw [outerIds, outerIds] <;> try exact .inr rfl
    · split
      · exact .inr rfl
      · exact Res.le_bind (Res.le_mapM _ fun a _ => ih _ _) fun _ => Res.le_refl _
    · exact Res.le_bind (Res.le_refl _) fun _ => ih _ _

theorem autoChoiceIds_le {ids ids' : AType → Res (List TagId)} (h : ∀ t, (ids t).le (ids' t)) (as : List Named) :
    ∀ i, (autoChoiceIds ids i as).le (autoChoiceIds ids' i as) := by
  induction as with
  | nil => intro i; rw [autoChoiceIds, autoChoiceIds]; exact .inr rfl
  | cons a as ih =>
    intro i
    rw [autoChoiceIds, autoChoiceIds]
    refine Res.le_bind ?_ fun _ => Res.le_bind (ih _) fun _ => Res.le_refl _
    unfold autoId
    split
    · exact Res.le_bind (h _) fun _ => Res.le_refl _
    · exact Res.le_refl _

theorem identifier_mono (tree : Tree) : ∀ (f : Nat) (mod : Module) (t : AType),
    (identifier tree f mod t).le (identifier tree (f + 1) mod t) := by
  intro f
  induction f with
  | zero => intro mod t; rw [identifier]; exact .inl rfl
  | succ f ih =>
    intro mod t
    cases t <;> rw [identifier, identifier] <;> try exact .inr rfl
    · refine Res.le_bind ?_ fun _ => Res.le_refl _
      unfold choiceIds
      split
      · exact autoChoiceIds_le (fun t => outerIds_mono tree f mod t) _ _
      · exact Res.le_bind (Res.le_mapM _ fun a _ => outerIds_mono tree f _ _) fun _ => Res.le_refl _
    · exact Res.le_bind (ih _ _) fun _ => Res.le_refl _
    · exact Res.le_bind (Res.le_refl _) fun _ => ih _ _

theorem outerIds_mono_le {tree : Tree} {f f' : Nat} {mod : Module} {t : AType} (h : f ≤ f') :
    (outerIds tree f mod t).le (outerIds tree f' mod t) := by
  induction h with
  | refl => exact Res.le_refl _
  | step _ ih =>
    rcases ih with h | h
    · exact .inl h
    · rw [h]; exact outerIds_mono _ _ _ _

theorem identifier_mono_le {tree : Tree} {f f' : Nat} {mod : Module} {t : AType} (h : f ≤ f') :
    (identifier tree f mod t).le (identifier tree f' mod t) := by
  induction h with
  | refl => exact Res.le_refl _
  | step _ ih =>
    rcases ih with h | h
    · exact .inl h
    · rw [h]; exact identifier_mono _ _ _ _

/-! ## Types that lead to something other than a CHOICE or ANY -/

/-- The type leads, through tags and references, to a type other than CHOICE, ANY and the types the code
has no identifier for; no tag without EXPLICIT or IMPLICIT is written in a module with AUTOMATIC TAGS. -/
inductive Plain (tree : Tree) : Module → AType → Prop where
  | leaf {mod : Module} {k : Builtin} {n : Nat} : k.universalTag = some n → Plain tree mod (.leaf k)
  | sequence (mod : Module) (cs : List Comp) (e : Bool) : Plain tree mod (.sequence cs e)
  | seqOf (mod : Module) (n : Option Name) (t : AType) (s : Storage) : Plain tree mod (.seqOf n t s)
  | set (mod : Module) (cs : List Comp) (e : Bool) : Plain tree mod (.set cs e)
  | setOf (mod : Module) (n : Option Name) (t : AType) (s : Storage) : Plain tree mod (.setOf n t s)
  | prefixed {mod : Module} {c : Cls} {n : Nat} {k : TagMode} {t : AType} :
      (k = .automatic → mod.tagging ≠ .automatic) → Plain tree mod t → Plain tree mod (.prefixed c n k t)
  | reference {mod : Module} {m : Option Name} {ref : Name} {ps : List AType} {wm : Module} {t : AType} :
      target tree mod m ref = some (wm, t) → Plain tree wm t → Plain tree mod (.defined m ref ps)

theorem Plain.not_untagged {tree : Tree} {mod : Module} {t : AType} (h : Plain tree mod t) : ¬ Untagged tree mod t := by
  induction h with
  | leaf h => intro hu; cases hu; cases h
  | sequence | seqOf | set | setOf | prefixed => intro hu; cases hu
  | reference h _ ih =>
    intro hu
    cases hu with
    | reference h' hu => rw [h] at h'; cases h'; exact ih hu

theorem universalTag_spec {k : Builtin} {n : Nat} (h : k.universalTag = some n) : universalNumber k = some n := by
  cases k <;> simp_all [Builtin.universalTag, universalNumber]

theorem explicit_iff {tree : Tree} {mod : Module} {t : AType} {k : TagMode} (hu : ¬ Untagged tree mod t)
    (hk : k = .automatic → mod.tagging ≠ .automatic) : ExplicitTag tree mod t k ↔ isExplicit mod k = true := by
  constructor
  · intro h
    cases h with
    | keyword => rfl
    | environment h => simp [isExplicit, h]
    | untagged h => exact absurd h hu
  · intro h
    cases k with
    | explicit_ => exact .keyword
    | implicit => cases h
    | automatic =>
      simp only [isExplicit, Bool.or_eq_true, decide_eq_true_eq] at h
      rcases h with h | h
      · exact .environment h
      · exact absurd h (hk rfl)

/-- First and last element of a list with at least two, the list itself otherwise. -/
def ends {α : Type} : List α → List α
  | [] => []
  | [a] => [a]
  | a :: b :: l => [a, (b :: l).getLast (by simp)]

theorem ends_cons {α : Type} (a : α) : ∀ (l : List α) (h : l ≠ []), ends (a :: l) = [a, l.getLast h]
  | [], h => absurd rfl h
  | _ :: _, _ => rfl

theorem getLast_ends {α : Type} : ∀ (l : List α) (h : l ≠ []) (h' : ends l ≠ []), (ends l).getLast h' = l.getLast h
  | [], h, _ => absurd rfl h
  | [_], _, _ => rfl
  | _ :: _ :: _, _, _ => by simp [ends]

theorem ends_eq_self {α : Type} (l : List α) : ends l = l ↔ l.length ≤ 2 := by
  match l with
  | [] => simp [ends]
  | [_] => simp [ends]
  | [_, _] => simp [ends]
  | a :: b :: c :: l =>
    simp only [ends, List.length_cons]
    constructor
    · intro h
      have := congrArg List.length h
      simp at this
    · intro h; omega

/-- The tags an object with this tagging writes, outermost first (`Ident`, Identifier.hpp of the library:
one tag, or a `DoubleId`). -/
def TagInfo.tags (i : TagInfo) : List Tag := i.outer.toList.map TagId.tag ++ [i.inner.tag]

theorem plain_tags {tree : Tree} {mod : Module} {t : AType} (h : Plain tree mod t) :
    ∃ ts f info, (∀ ts', Tags tree mod t ts' ↔ ts' = ts) ∧ identifier tree f mod t = .ok info ∧
      info.choiceIds = [] ∧ info.tags = ends ts := by
  induction h with
  | @leaf mod k n h =>
    refine ⟨[(.universal, n)], 1, ⟨none, .ofUniversal n, [], true⟩, ?_, ?_, rfl, rfl⟩
    · intro ts'
      constructor
      · intro h'; cases h' with
        | leaf h' => rw [universalTag_spec h] at h'; cases h'; rfl
      · rintro rfl; exact .leaf (universalTag_spec h)
    · rw [identifier, leafInfo, if_neg (by rintro rfl; cases h), h]
  | sequence mod cs e =>
    refine ⟨[(.universal, 16)], 1, ⟨none, .ofUniversal 16, [], true⟩, ?_, by rw [identifier], rfl, rfl⟩
    intro ts'; exact ⟨fun h => by cases h; rfl, fun h => by subst h; exact .sequence ..⟩
  | seqOf mod n t s =>
    refine ⟨[(.universal, 16)], 1, ⟨none, .ofUniversal 16, [], true⟩, ?_, by rw [identifier], rfl, rfl⟩
    intro ts'; exact ⟨fun h => by cases h; rfl, fun h => by subst h; exact .seqOf ..⟩
  | set mod cs e =>
    refine ⟨[(.universal, 17)], 1, ⟨none, .ofUniversal 17, [], true⟩, ?_, by rw [identifier], rfl, rfl⟩
    intro ts'; exact ⟨fun h => by cases h; rfl, fun h => by subst h; exact .set ..⟩
  | setOf mod n t s =>
    refine ⟨[(.universal, 17)], 1, ⟨none, .ofUniversal 17, [], true⟩, ?_, by rw [identifier], rfl, rfl⟩
    intro ts'; exact ⟨fun h => by cases h; rfl, fun h => by subst h; exact .setOf ..⟩
  | @prefixed mod c n k t hk hp ih =>
    obtain ⟨ts, f, info, hts, hi, hc, htag⟩ := ih
    have hu := hp.not_untagged
    have hex := explicit_iff (k := k) hu hk
    have hne : ts ≠ [] := ((hts ts).2 rfl).ne_nil
    by_cases hx : isExplicit mod k = true
    · refine ⟨(c, n) :: ts, f + 1, ⟨some (.ofTag c n), info.inner, [], false⟩, ?_, ?_, rfl, ?_⟩
      · intro ts'
        constructor
        · intro h
          cases h with
          | explicit_ _ h => rw [(hts _).1 h]
          | implicit h _ _ => exact absurd (hex.2 hx) h
        · rintro rfl; exact .explicit_ (hex.2 hx) ((hts _).2 rfl)
      · rw [identifier, hi, Res.ok_bind, hx]; rfl
      · rw [ends_cons _ _ hne]
        have h1 : info.tags ≠ [] := by simp [TagInfo.tags]
        have h2 : info.tags.getLast h1 = info.inner.tag := by simp [TagInfo.tags]
        have h3 : (ends ts).getLast (htag ▸ h1) = ts.getLast hne := getLast_ends ts hne _
        have h4 : info.tags.getLast h1 = ts.getLast hne := by simp only [htag]; exact h3
        rw [← h4, h2]
        rfl
    · obtain ⟨x, rest, rfl⟩ : ∃ x rest, ts = x :: rest := by
        cases ts with
        | nil => exact absurd rfl hne
        | cons x rest => exact ⟨x, rest, rfl⟩
      have hspec : ∀ ts', Tags tree mod (.prefixed c n k t) ts' ↔ ts' = (c, n) :: rest := by
        intro ts'
        constructor
        · intro h
          cases h with
          | explicit_ h _ => exact absurd (hex.1 h) hx
          | implicit _ _ h => have := (hts _).1 h; cases this; rfl
        · rintro rfl; exact .implicit (fun h => hx (hex.1 h)) hu ((hts _).2 rfl)
      have hx' : isExplicit mod k = false := by simpa using hx
      cases rest with
      | nil =>
        have ho : info.outer = none := by
          cases h : info.outer with
          | none => rfl
          | some o => rw [TagInfo.tags, h] at htag; simp [ends] at htag
        exact ⟨_, f + 1, ⟨none, .ofTag c n, [], false⟩, hspec, by rw [identifier, hi, Res.ok_bind, hx', ho]; rfl, rfl, rfl⟩
      | cons y rest =>
        obtain ⟨o, ho⟩ : ∃ o, info.outer = some o := by
          cases h : info.outer with
          | none => rw [TagInfo.tags, h] at htag; simp [ends] at htag
          | some o => exact ⟨o, rfl⟩
        refine ⟨_, f + 1, ⟨some (.ofTag c n), info.inner, [], false⟩, hspec, by rw [identifier, hi, Res.ok_bind, hx', ho]; rfl, rfl, ?_⟩
        rw [TagInfo.tags, ho, ends_cons _ _ (by simp)] at htag
        rw [TagInfo.tags, ends_cons _ _ (by simp)]
        simp only [Option.toList_some, List.map_cons, List.map_nil, List.cons_append, List.nil_append, List.cons.injEq, and_true] at htag ⊢
        exact ⟨rfl, htag.2⟩
  | @reference mod m ref ps wm t ht _ ih =>
    obtain ⟨ts, f, info, hts, hi, hc, htag⟩ := ih
    refine ⟨ts, f + 1, info, ?_, ?_, hc, htag⟩
    · intro ts'
      constructor
      · intro h
        cases h with
        | reference ht' h => rw [ht] at ht'; cases ht'; exact (hts _).1 h
      · intro h; exact .reference ht ((hts _).2 h)
    · rw [identifier, followRef_ok.2 ht, Res.ok_bind]; exact hi

/-! ## Outermost tags -/

/-- The type leads, through references and alternatives of CHOICEs, to tagged types and types the code has
an identifier for; no tag is of class UNIVERSAL (X.680 31.2.4 forbids it); CHOICEs have alternatives, which
are not tagged if the module has AUTOMATIC TAGS. -/
inductive Clear (tree : Tree) : Module → AType → Prop where
  | leaf {mod : Module} {k : Builtin} {n : Nat} : k.universalTag = some n → Clear tree mod (.leaf k)
  | sequence (mod : Module) (cs : List Comp) (e : Bool) : Clear tree mod (.sequence cs e)
  | seqOf (mod : Module) (n : Option Name) (t : AType) (s : Storage) : Clear tree mod (.seqOf n t s)
  | set (mod : Module) (cs : List Comp) (e : Bool) : Clear tree mod (.set cs e)
  | setOf (mod : Module) (n : Option Name) (t : AType) (s : Storage) : Clear tree mod (.setOf n t s)
  | prefixed (mod : Module) {c : Cls} (n : Nat) (k : TagMode) (t : AType) : c ≠ .universal →
      Clear tree mod (.prefixed c n k t)
  | choice {mod : Module} {as : List Named} {s : Storage} : mod.tagging ≠ .automatic → as ≠ [] →
      (∀ a, a ∈ as → Clear tree mod a.type) → Clear tree mod (.choice as s)
  | automaticChoice {mod : Module} {as : List Named} {s : Storage} : AutomaticallyTagged mod as → as ≠ [] →
      Clear tree mod (.choice as s)
  | reference {mod : Module} {m : Option Name} {ref : Name} {ps : List AType} {wm : Module} {t : AType} :
      target tree mod m ref = some (wm, t) → Clear tree wm t → Clear tree mod (.defined m ref ps)

/-- Made from a `UniversalTag` exactly if the class is universal. -/
def TagId.Normal (i : TagId) : Prop := i.universal = if i.cls = .universal then i.num else 0

theorem TagId.Normal.ext {i j : TagId} (hi : i.Normal) (hj : j.Normal) (h : i.tag = j.tag) : i = j := by
  obtain ⟨c, n, u⟩ := i
  obtain ⟨c', n', u'⟩ := j
  simp only [TagId.tag, Prod.mk.injEq] at h
  obtain ⟨rfl, rfl⟩ := h
  simp only [TagId.Normal] at hi hj
  rw [hi, hj]

/-- If each of finitely many calls ends for some count, all end for one count. -/
theorem mapM_outerIds {tree : Tree} {mod : Module} : ∀ (as : List Named),
    (∀ a ∈ as, ∃ f ids, outerIds tree f mod a.type = .ok ids) →
    ∃ f idss, (as.mapM fun a => outerIds tree f mod a.type) = .ok idss ∧
      idss.length = as.length ∧ ∀ (i : Nat) (ids : List TagId) (a : Named), idss[i]? = some ids → as[i]? = some a →
        outerIds tree f mod a.type = .ok ids := by
  intro as
  induction as with
  | nil => intro _; exact ⟨0, [], rfl, rfl, by simp⟩
  | cons a as ih =>
    intro h
    obtain ⟨f1, ids, h1⟩ := h a (by simp)
    obtain ⟨f2, idss, h2, hl, h3⟩ := ih fun b hb => h b (by simp [hb])
    have h1' := Res.le_ok (outerIds_mono_le (Nat.le_max_left f1 f2)) h1
    have h2' : (as.mapM fun a => outerIds tree (max f1 f2) mod a.type) = .ok idss :=
      Res.le_ok (Res.le_mapM as fun b _ => outerIds_mono_le (Nat.le_max_right f1 f2)) h2
    refine ⟨max f1 f2, ids :: idss, ?_, by simp [hl], ?_⟩
    · rw [List.mapM_cons, h1', Res.ok_bind, h2']; rfl
    · intro i x b hi hb
      cases i with
      | zero => simp at hi hb; subst hi; subst hb; exact h1'
      | succ i =>
        simp at hi hb
        exact Res.le_ok (outerIds_mono_le (Nat.le_max_right f1 f2)) (h3 i x b hi hb)

theorem mem_flatten_idx {α : Type} {ls : List (List α)} {x : α} : x ∈ ls.flatten ↔ ∃ (i : Nat) (l : List α), ls[i]? = some l ∧ x ∈ l := by
  constructor
  · intro h
    obtain ⟨l, hl, hx⟩ := List.mem_flatten.1 h
    obtain ⟨i, hi⟩ := List.getElem?_of_mem hl
    exact ⟨i, l, hi, hx⟩
  · rintro ⟨i, l, hi, hx⟩
    exact List.mem_flatten.2 ⟨l, List.mem_of_getElem? hi, hx⟩

theorem outerIds_unique {tree : Tree} {f f' : Nat} {mod : Module} {t : AType} {ids ids' : List TagId}
    (h : outerIds tree f mod t = .ok ids) (h' : outerIds tree f' mod t = .ok ids') : ids = ids' := by
  have h1 := Res.le_ok (outerIds_mono_le (Nat.le_max_left f f')) h
  have h2 := Res.le_ok (outerIds_mono_le (Nat.le_max_right f f')) h'
  rw [h1] at h2; cases h2; rfl

theorem clear_outer {tree : Tree} {mod : Module} {t : AType} (h : Clear tree mod t) :
    ∃ f ids, outerIds tree f mod t = .ok ids ∧ (∀ tag, tag ∈ ids.map TagId.tag ↔ Outermost tree mod t tag) ∧
      ids ≠ [] ∧ ∀ i ∈ ids, i.Normal := by
  induction h with
  | @leaf mod k n h =>
    refine ⟨1, [.ofUniversal n], ?_, ?_, by simp, by simp [TagId.Normal, TagId.ofUniversal]⟩
    · rw [outerIds, if_neg (by rintro rfl; cases h), h]; rfl
    · intro tag
      simp only [List.map_cons, List.map_nil, List.mem_singleton, TagId.tag, TagId.ofUniversal]
      constructor
      · rintro rfl; exact .leaf (universalTag_spec h)
      · intro h'; cases h' with
        | leaf h' => rw [universalTag_spec h] at h'; cases h'; rfl
  | sequence mod cs e =>
    refine ⟨1, [.ofUniversal 16], by rw [outerIds], fun tag => ?_, by simp, by simp [TagId.Normal, TagId.ofUniversal]⟩
    simp only [List.map_cons, List.map_nil, List.mem_singleton, TagId.tag, TagId.ofUniversal]
    exact ⟨fun h => by subst h; exact .sequence .., fun h => by cases h; rfl⟩
  | seqOf mod n t s =>
    refine ⟨1, [.ofUniversal 16], by rw [outerIds], fun tag => ?_, by simp, by simp [TagId.Normal, TagId.ofUniversal]⟩
    simp only [List.map_cons, List.map_nil, List.mem_singleton, TagId.tag, TagId.ofUniversal]
    exact ⟨fun h => by subst h; exact .seqOf .., fun h => by cases h; rfl⟩
  | set mod cs e =>
    refine ⟨1, [.ofUniversal 17], by rw [outerIds], fun tag => ?_, by simp, by simp [TagId.Normal, TagId.ofUniversal]⟩
    simp only [List.map_cons, List.map_nil, List.mem_singleton, TagId.tag, TagId.ofUniversal]
    exact ⟨fun h => by subst h; exact .set .., fun h => by cases h; rfl⟩
  | setOf mod n t s =>
    refine ⟨1, [.ofUniversal 17], by rw [outerIds], fun tag => ?_, by simp, by simp [TagId.Normal, TagId.ofUniversal]⟩
    simp only [List.map_cons, List.map_nil, List.mem_singleton, TagId.tag, TagId.ofUniversal]
    exact ⟨fun h => by subst h; exact .setOf .., fun h => by cases h; rfl⟩
  | @prefixed mod c n k t hc =>
    refine ⟨1, [.ofTag c n], by rw [outerIds], fun tag => ?_, by simp, by simp [TagId.Normal, TagId.ofTag, hc]⟩
    simp only [List.map_cons, List.map_nil, List.mem_singleton, TagId.tag, TagId.ofTag]
    exact ⟨fun h => by subst h; exact .prefixed .., fun h => by cases h; rfl⟩
  | @choice mod as s hna hne _ ih =>
    obtain ⟨f, idss, hm, hl, hi⟩ := mapM_outerIds as fun a ha => by
      obtain ⟨f, ids, h, _⟩ := ih a ha; exact ⟨f, ids, h⟩
    have hsame : ∀ (i : Nat) (ids : List TagId), idss[i]? = some ids → ids ≠ [] ∧ ∀ x ∈ ids, x.Normal := by
      intro i ids h1
      have hlt : i < as.length := by rw [← hl]; exact (List.getElem?_eq_some_iff.1 h1).1
      obtain ⟨f', ids', h3, _, h6, h7⟩ := ih as[i] (List.getElem_mem hlt)
      have : ids = ids' := outerIds_unique (hi i ids as[i] h1 (List.getElem?_eq_getElem hlt)) h3
      subst this
      exact ⟨h6, h7⟩
    refine ⟨f + 1, idss.flatten, by rw [outerIds, if_neg hna, hm]; rfl, fun tag => ?_, ?_, ?_⟩
    rotate_left
    · obtain ⟨a, rest, rfl⟩ := List.exists_cons_of_ne_nil hne
      obtain ⟨ids, irest, rfl⟩ : ∃ x y, idss = x :: y := by
        cases idss with
        | nil => simp at hl
        | cons x y => exact ⟨x, y, rfl⟩
      intro h
      rw [List.flatten_cons, List.append_eq_nil_iff] at h
      exact (hsame 0 ids rfl).1 h.1
    · intro x hx
      obtain ⟨i, ids, h1, h2⟩ := mem_flatten_idx.1 hx
      exact (hsame i ids h1).2 x h2
    constructor
    · intro h
      obtain ⟨id, hid, rfl⟩ := List.mem_map.1 h
      obtain ⟨i, ids, h1, h2⟩ := mem_flatten_idx.1 hid
      have hlt : i < as.length := by rw [← hl]; exact (List.getElem?_eq_some_iff.1 h1).1
      obtain ⟨f', ids', h3, h4, _⟩ := ih as[i] (List.getElem_mem hlt)
      have h5 := hi i ids as[i] h1 (List.getElem?_eq_getElem hlt)
      have : ids = ids' := outerIds_unique h5 h3
      subst this
      exact .choice (fun h => hna h.1) (List.getElem_mem hlt) ((h4 _).1 (List.mem_map_of_mem h2))
    · intro h
      cases h with
      | @choice _ _ _ a _ _ ha ho =>
        obtain ⟨i, hia⟩ := List.getElem?_of_mem ha
        have hlt := (List.getElem?_eq_some_iff.1 hia).1
        obtain ⟨f', ids', h3, h4, _⟩ := ih a ha
        have h1 : idss[i]? = some (idss[i]'(by omega)) := List.getElem?_eq_getElem _
        have h5 := hi i _ a h1 hia
        have := outerIds_unique h5 h3
        obtain ⟨id, hid, hh⟩ := List.mem_map.1 ((h4 tag).2 ho)
        exact List.mem_map.2 ⟨id, mem_flatten_idx.2 ⟨i, _, h1, this ▸ hid⟩, hh⟩
      | automaticChoice h _ => exact absurd h.1 hna
  | @automaticChoice mod as s h hne =>
    refine ⟨1, (List.range as.length).map fun i => TagId.ofTag .contextSpecific i, by rw [outerIds, if_pos h.1],
      fun tag => ?_, by simp [hne], by simp [TagId.Normal, TagId.ofTag]⟩
    simp only [List.map_map, List.mem_map, List.mem_range, Function.comp_def]
    constructor
    · rintro ⟨i, hi, rfl⟩; exact .automaticChoice h hi
    · intro h'
      cases h' with
      | choice hn _ _ => exact absurd h hn
      | automaticChoice _ hi => exact ⟨_, hi, rfl⟩
  | @reference mod m ref ps wm t ht _ ih =>
    obtain ⟨f, ids, h1, h2, h3, h4⟩ := ih
    refine ⟨f + 1, ids, by rw [outerIds, followRef_ok.2 ht, Res.ok_bind]; exact h1, fun tag => ?_, h3, h4⟩
    rw [h2]
    constructor
    · intro h; exact .reference ht h
    · intro h
      cases h with
      | reference ht' h => rw [ht] at ht'; cases ht'; exact h

/-! ## Duplicates -/

theorem checkDistinct_ok (l : List TagId) : ∀ seen, checkDistinct seen l = .ok () ↔ l.Nodup ∧ ∀ x ∈ l, x ∉ seen := by
  induction l with
  | nil => intro seen; simp [checkDistinct]
  | cons a l ih =>
    intro seen
    rw [checkDistinct]
    by_cases h : a ∈ seen
    · simp [h]
    · rw [if_neg (by simpa using h), ih]
      simp only [List.nodup_cons, List.mem_cons, not_or, forall_eq_or_imp]
      constructor
      · rintro ⟨h1, h2⟩
        exact ⟨⟨fun hm => (h2 a hm).1 rfl, h1⟩, h, fun x hx => (h2 x hx).2⟩
      · rintro ⟨⟨h1, h2⟩, _, h3⟩
        exact ⟨h2, fun x hx => ⟨fun e => h1 (e ▸ hx), h3 x hx⟩⟩

theorem checkDistinct_cases (l : List TagId) : ∀ seen,
    checkDistinct seen l = .ok () ∨ checkDistinct seen l = .throw .duplicateIdentifier := by
  induction l with
  | nil => intro seen; exact .inl rfl
  | cons a l ih =>
    intro seen
    rw [checkDistinct]
    split
    · exact .inr rfl
    · exact ih _

theorem autoChoiceIds_none (ids : AType → Res (List TagId)) (as : List Named) (h : NoneTagged as) :
    ∀ i, autoChoiceIds ids i as = .ok ((List.range as.length).map fun j => TagId.ofTag .contextSpecific (i + j)) := by
  induction as with
  | nil => intro i; rfl
  | cons a as ih =>
    intro i
    have ha : a.type.isPrefixed = false := by
      cases ht : a.type with
      | prefixed c n k t => exact absurd ht (h a (by simp) c n k t)
      | _ => rfl
    rw [autoChoiceIds, autoId, ha, if_neg (by simp), Res.ok_bind, ih (fun b hb => h b (by simp [hb])), Res.ok_bind,
      List.length_cons, List.range_succ_eq_map]
    simp only [List.map_cons, Nat.add_zero, List.map_map, Function.comp_def]
    congr 2
    apply List.map_congr_left
    intro j _
    rw [show i + 1 + j = i + (j + 1) by omega]

/-- `identifier` of a CHOICE collects what `outer_identifiers` lists, and checks that nothing is listed twice. -/
theorem identifier_choice {tree : Tree} {mod : Module} {as : List Named} {s : Storage} (h : Clear tree mod (.choice as s)) :
    ∃ f ids, outerIds tree f mod (.choice as s) = .ok ids ∧ ∀ f', f ≤ f' →
      (ids.Nodup → identifier tree f' mod (.choice as s) = .ok ⟨none, {}, ids, true⟩) ∧
      (¬ ids.Nodup → identifier tree f' mod (.choice as s) = .throw .duplicateIdentifier) := by
  obtain ⟨f, ids, h1, _, hne, _⟩ := clear_outer h
  have hlen : ids.length > 0 := List.length_pos_iff.2 hne
  refine ⟨f, ids, h1, fun f' hf => ?_⟩
  cases f with
  | zero => rw [outerIds] at h1; cases h1
  | succ f =>
    obtain ⟨f', rfl⟩ : ∃ g, f' = g + 1 := ⟨f' - 1, by omega⟩
    have hids : choiceIds (outerIds tree f' mod) mod as = .ok ids := by
      unfold choiceIds
      cases h with
      | choice hna _ _ =>
        have h1 := Res.le_ok (outerIds_mono_le hf) h1
        rw [outerIds, if_neg hna] at h1
        rw [if_neg hna]; exact h1
      | automaticChoice ha _ =>
        rw [outerIds, if_pos ha.1] at h1
        rw [if_pos ha.1, autoChoiceIds_none _ _ ha.2]
        simpa using h1
    have hout : (⟨none, {}, ids, true⟩ : TagInfo).outerTags = ids := by simp only [TagInfo.outerTags]; rw [if_pos hlen]
    constructor
    · intro hn
      rw [identifier, hids, Res.ok_bind]
      simp only [hout, (checkDistinct_ok ids []).2 ⟨hn, by simp⟩, Res.ok_bind]
    · intro hn
      rw [identifier, hids, Res.ok_bind]
      simp only [hout]
      rcases checkDistinct_cases ids [] with h | h
      · exact absurd ((checkDistinct_ok ids []).1 h).1 hn
      · rw [h]; rfl

theorem identifier_unique {tree : Tree} {f f' : Nat} {mod : Module} {t : AType} {r r' : Res TagInfo}
    (h : identifier tree f mod t = r) (h' : identifier tree f' mod t = r') (hr : r ≠ .loop) (hr' : r' ≠ .loop) : r = r' := by
  have h1 : (identifier tree f mod t).le _ := identifier_mono_le (Nat.le_max_left f f')
  have h2 : (identifier tree f' mod t).le _ := identifier_mono_le (Nat.le_max_right f f')
  rw [h] at h1
  rw [h'] at h2
  rcases h1 with h1 | h1
  · exact absurd h1 hr
  · rcases h2 with h2 | h2
    · exact absurd h2 hr'
    · rw [h1, h2]

/-- The identifiers `identifier` gives for a type are its outermost tags. -/
theorem identifier_outer {tree : Tree} {mod : Module} {t : AType} (h : Clear tree mod t) : ∀ {f : Nat} {info : TagInfo},
    identifier tree f mod t = .ok info →
    (∀ tag, tag ∈ info.outerTags.map TagId.tag ↔ Outermost tree mod t tag) ∧ info.outerTags ≠ [] ∧
    (∀ i ∈ info.outerTags, i.Normal) ∧ info.outerTags.Nodup ∧ ∃ f', outerIds tree f' mod t = .ok info.outerTags := by
  have single : ∀ {mod t f info} {id : TagId}, Clear tree mod t → identifier tree f mod t = .ok info → info.outerTags = [id] →
      outerIds tree 1 mod t = .ok [id] →
      (∀ tag, tag ∈ info.outerTags.map TagId.tag ↔ Outermost tree mod t tag) ∧ info.outerTags ≠ [] ∧
      (∀ i ∈ info.outerTags, i.Normal) ∧ info.outerTags.Nodup ∧ ∃ f', outerIds tree f' mod t = .ok info.outerTags := by
    intro mod t f info id hc _ ho hi
    obtain ⟨f1, ids, h1, h2, h3, h4⟩ := clear_outer hc
    have := outerIds_unique h1 hi
    subst this
    rw [ho]
    exact ⟨h2, by simp, h4, by simp, 1, hi⟩
  induction h with
  | @leaf mod k n h =>
    intro f info hi
    refine single (id := .ofUniversal n) (.leaf h) hi ?_ (by rw [outerIds, if_neg (by rintro rfl; cases h), h]; rfl)
    cases f with
    | zero => rw [identifier] at hi; cases hi
    | succ f => rw [identifier, leafInfo, if_neg (by rintro rfl; cases h), h] at hi; cases hi; rfl
  | sequence mod cs e =>
    intro f info hi
    refine single (.sequence mod cs e) hi ?_ (by rw [outerIds])
    cases f with
    | zero => rw [identifier] at hi; cases hi
    | succ f => rw [identifier] at hi; cases hi; rfl
  | seqOf mod cs e s =>
    intro f info hi
    refine single (.seqOf mod cs e s) hi ?_ (by rw [outerIds])
    cases f with
    | zero => rw [identifier] at hi; cases hi
    | succ f => rw [identifier] at hi; cases hi; rfl
  | set mod cs e =>
    intro f info hi
    refine single (.set mod cs e) hi ?_ (by rw [outerIds])
    cases f with
    | zero => rw [identifier] at hi; cases hi
    | succ f => rw [identifier] at hi; cases hi; rfl
  | setOf mod cs e s =>
    intro f info hi
    refine single (.setOf mod cs e s) hi ?_ (by rw [outerIds])
    cases f with
    | zero => rw [identifier] at hi; cases hi
    | succ f => rw [identifier] at hi; cases hi; rfl
  | @prefixed mod c n k t hc =>
    intro f info hi
    refine single (.prefixed mod n k t hc) hi ?_ (by rw [outerIds])
    cases f with
    | zero => rw [identifier] at hi; cases hi
    | succ f =>
      rw [identifier] at hi
      obtain ⟨child, _, hi⟩ := Res.bind_eq_ok.1 hi
      split at hi <;> (cases hi; rfl)
  | @choice mod as s hna hne hcl _ =>
    intro f info hi
    have hc : Clear tree mod (.choice as s) := .choice hna hne hcl
    obtain ⟨f1, ids, h1, h2⟩ := identifier_choice hc
    obtain ⟨f3, ids', h3, h4, h5, h6⟩ := clear_outer hc
    have := outerIds_unique h1 h3; subst this
    have h2 := h2 f1 (Nat.le_refl _)
    by_cases hn : ids.Nodup
    · have := identifier_unique hi (h2.1 hn) (by simp) (by simp)
      cases this
      have hout : (⟨none, {}, ids, true⟩ : TagInfo).outerTags = ids := by
        simp only [TagInfo.outerTags]; rw [if_pos (List.length_pos_iff.2 h5)]
      rw [hout]
      exact ⟨h4, h5, h6, hn, f1, h1⟩
    · have := identifier_unique hi (h2.2 hn) (by simp) (by simp)
      cases this
  | @automaticChoice mod as s ha hne =>
    intro f info hi
    have hc : Clear tree mod (.choice as s) := .automaticChoice ha hne
    obtain ⟨f1, ids, h1, h2⟩ := identifier_choice hc
    obtain ⟨f3, ids', h3, h4, h5, h6⟩ := clear_outer hc
    have := outerIds_unique h1 h3; subst this
    have h2 := h2 f1 (Nat.le_refl _)
    by_cases hn : ids.Nodup
    · have := identifier_unique hi (h2.1 hn) (by simp) (by simp)
      cases this
      have hout : (⟨none, {}, ids, true⟩ : TagInfo).outerTags = ids := by
        simp only [TagInfo.outerTags]; rw [if_pos (List.length_pos_iff.2 h5)]
      rw [hout]
      exact ⟨h4, h5, h6, hn, f1, h1⟩
    · have := identifier_unique hi (h2.2 hn) (by simp) (by simp)
      cases this
  | @reference mod m ref ps wm t ht _ ih =>
    intro f info hi
    cases f with
    | zero => rw [identifier] at hi; cases hi
    | succ f =>
      rw [identifier, followRef_ok.2 ht, Res.ok_bind] at hi
      obtain ⟨h1, h2, h3, h4, f', h5⟩ := ih hi
      refine ⟨fun tag => ?_, h2, h3, h4, f' + 1, by rw [outerIds, followRef_ok.2 ht, Res.ok_bind]; exact h5⟩
      rw [h1]
      constructor
      · intro h; exact .reference ht h
      · intro h
        cases h with
        | reference ht' h => rw [ht] at ht'; cases ht'; exact h

/-- The check of SET, given the identifiers of the components. -/
theorem checkSetFrom_ok {ids : AType → Res TagInfo} {g : AType → TagInfo} (cs : List Comp)
    (h : ∀ c ∈ cs, ids c.type = .ok (g c.type)) : ∀ seen, checkSetFrom ids seen cs = .ok () ↔
      (cs.flatMap fun c => (g c.type).outerTags).Nodup ∧ ∀ x ∈ cs.flatMap fun c => (g c.type).outerTags, x ∉ seen := by
  induction cs with
  | nil => intro seen; simp [checkSetFrom]
  | cons c cs ih =>
    intro seen
    rw [checkSetFrom, h c (by simp), Res.ok_bind]
    have ih := ih (fun b hb => h b (by simp [hb]))
    rcases checkDistinct_cases (g c.type).outerTags seen with hd | hd
    · rw [hd, Res.ok_bind, ih]
      have hd := (checkDistinct_ok _ _).1 hd
      simp only [List.flatMap_cons, List.nodup_append, List.mem_append, List.mem_reverse, not_or]
      constructor
      · rintro ⟨h1, h2⟩
        refine ⟨⟨hd.1, h1, fun a ha b hb e => (h2 b hb).1 (e ▸ ha)⟩, ?_⟩
        rintro x (hx | hx)
        · exact hd.2 x hx
        · exact (h2 x hx).2
      · rintro ⟨⟨_, h1, h2⟩, h3⟩
        exact ⟨h1, fun x hx => ⟨fun hm => h2 x hm x hx rfl, h3 x (.inr hx)⟩⟩
    · rw [hd]
      constructor
      · intro h; cases h
      · rintro ⟨h1, h2⟩
        rw [List.flatMap_cons] at h1 h2
        have := (checkDistinct_ok _ _).2 ⟨(List.nodup_append.1 h1).1, fun x hx => h2 x (by simp only [List.mem_append]; exact .inl hx)⟩
        rw [this] at hd; cases hd

theorem checkSetFrom_cases {ids : AType → Res TagInfo} {g : AType → TagInfo} (cs : List Comp)
    (h : ∀ c ∈ cs, ids c.type = .ok (g c.type)) : ∀ seen, checkSetFrom ids seen cs = .ok () ∨
      checkSetFrom ids seen cs = .throw .duplicateIdentifier := by
  induction cs with
  | nil => intro seen; exact .inl rfl
  | cons c cs ih =>
    intro seen
    rw [checkSetFrom, h c (by simp), Res.ok_bind]
    rcases checkDistinct_cases (g c.type).outerTags seen with hd | hd
    · rw [hd]; exact ih (fun b hb => h b (by simp [hb])) _
    · rw [hd]; exact .inr rfl

theorem nodup_flatMap_idx {α β : Type} (f : α → List β) (l : List α) : (l.flatMap f).Nodup ↔
    (∀ a ∈ l, (f a).Nodup) ∧ ∀ (i j : Nat) (a b : α), i < j → l[i]? = some a → l[j]? = some b → ∀ x ∈ f a, x ∉ f b := by
  induction l with
  | nil => simp
  | cons c l ih =>
    rw [List.flatMap_cons, List.nodup_append, ih]
    constructor
    · rintro ⟨h1, ⟨h2, h3⟩, h4⟩
      refine ⟨?_, ?_⟩
      · intro a ha
        rcases List.mem_cons.1 ha with rfl | ha
        · exact h1
        · exact h2 a ha
      · intro i j a b hij hi hj x hx hxb
        obtain ⟨j, rfl⟩ : ∃ k, j = k + 1 := ⟨j - 1, by omega⟩
        rw [List.getElem?_cons_succ] at hj
        cases i with
        | zero =>
          simp only [List.getElem?_cons_zero, Option.some.injEq] at hi
          subst hi
          exact h4 x hx x (List.mem_flatMap.2 ⟨b, List.mem_of_getElem? hj, hxb⟩) rfl
        | succ i =>
          rw [List.getElem?_cons_succ] at hi
          exact h3 i j a b (by omega) hi hj x hx hxb
    · rintro ⟨h1, h2⟩
      refine ⟨h1 c (by simp), ⟨fun a ha => h1 a (by simp [ha]), fun i j a b hij hi hj => ?_⟩, ?_⟩
      · exact h2 (i + 1) (j + 1) a b (by omega) (by simpa using hi) (by simpa using hj)
      · intro x hx y hy e
        subst e
        obtain ⟨b, hb, hxb⟩ := List.mem_flatMap.1 hy
        obtain ⟨j, hj⟩ := List.getElem?_of_mem hb
        exact h2 0 (j + 1) c b (by omega) rfl (by simpa using hj) x hx hxb

/-- OPTIONAL or DEFAULT. -/
def Comp.mayBeAbsent (c : Comp) : Bool := c.optional || c.default.isSome

/-- The check of SEQUENCE, given the identifiers of the components that may be absent. -/
theorem checkSeqFrom_ok {ids : AType → Res TagInfo} {g : AType → TagInfo} (cs : List Comp)
    (h : ∀ c ∈ cs, c.mayBeAbsent = true → ids c.type = .ok (g c.type))
    (hne : ∀ c ∈ cs, c.mayBeAbsent = true → (g c.type).outerTags ≠ []) : ∀ prev,
    (checkSeqFrom ids prev cs = .ok () ∨ checkSeqFrom ids prev cs = .throw .duplicateIdentifier) ∧
    (checkSeqFrom ids prev cs = .ok () ↔
      (∀ c, cs[0]? = some c → c.mayBeAbsent = true → ∀ x, (g c.type).outerTags.head? = some x → x ∉ prev) ∧
      ∀ (i : Nat) (a b : Comp), cs[i]? = some a → cs[i + 1]? = some b → a.mayBeAbsent = true → b.mayBeAbsent = true →
        ∀ x, (g b.type).outerTags.head? = some x → x ∉ (g a.type).outerTags) := by
  induction cs with
  | nil => intro prev; simp [checkSeqFrom]
  | cons c cs ih =>
    intro prev
    have ih := ih (fun b hb => h b (by simp [hb])) (fun b hb => hne b (by simp [hb]))
    rw [checkSeqFrom]
    by_cases hc : c.mayBeAbsent = true
    · rw [if_pos (by simpa [Comp.mayBeAbsent] using hc), h c (by simp) hc, Res.ok_bind]
      cases ho : (g c.type).outerTags with
      | nil => exact absurd ho (hne c (by simp) hc)
      | cons first rest =>
        dsimp only
        by_cases hp : first ∈ prev
        · rw [if_pos (by simpa using hp)]
          refine ⟨.inr rfl, ?_⟩
          simp only [reduceCtorEq, false_iff]
          rintro ⟨h1, _⟩
          exact h1 c rfl hc first (by rw [ho]; rfl) hp
        · rw [if_neg (by simpa using hp)]
          refine ⟨(ih _).1, (ih _).2.trans ?_⟩
          constructor
          · rintro ⟨h1, h2⟩
            refine ⟨fun c' hc' _ x hx => ?_, fun i a b hi hj ha hb x hx => ?_⟩
            · simp only [List.getElem?_cons_zero, Option.some.injEq] at hc'
              subst hc'
              rw [ho] at hx
              simp only [List.head?_cons, Option.some.injEq] at hx
              subst hx
              exact hp
            · cases i with
              | zero =>
                simp only [List.getElem?_cons_zero, Option.some.injEq] at hi
                subst hi
                rw [List.getElem?_cons_succ] at hj
                rw [ho]
                exact h1 b hj hb x hx
              | succ i =>
                rw [List.getElem?_cons_succ] at hi hj
                exact h2 i a b hi hj ha hb x hx
          · rintro ⟨_, h2⟩
            refine ⟨fun c' hc' hb x hx => ?_, fun i a b hi hj ha hb x hx => ?_⟩
            · rw [← ho]
              exact h2 0 c c' rfl (by simpa using hc') hc hb x hx
            · exact h2 (i + 1) a b (by simpa using hi) (by simpa using hj) ha hb x hx
    · rw [if_neg (by simpa [Comp.mayBeAbsent] using hc)]
      refine ⟨(ih _).1, (ih _).2.trans ?_⟩
      constructor
      · rintro ⟨_, h2⟩
        refine ⟨fun c' hc' hm => ?_, fun i a b hi hj ha hb x hx => ?_⟩
        · simp only [List.getElem?_cons_zero, Option.some.injEq] at hc'
          subst hc'
          exact absurd hm hc
        · cases i with
          | zero =>
            simp only [List.getElem?_cons_zero, Option.some.injEq] at hi
            subst hi
            exact absurd ha hc
          | succ i =>
            rw [List.getElem?_cons_succ] at hi hj
            exact h2 i a b hi hj ha hb x hx
      · rintro ⟨_, h2⟩
        exact ⟨by simp, fun i a b hi hj ha hb x hx => h2 (i + 1) a b (by simpa using hi) (by simpa using hj) ha hb x hx⟩

end FastBer.Ast
