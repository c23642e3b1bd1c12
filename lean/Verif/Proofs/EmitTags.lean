import Verif.Proofs.Impl
/-!
# The identifiers the compiler writes are those of X.680
-/
namespace FastBer.Ast
open Spec

/-- The tags of an identifier written as a template argument; none for `ChoiceId`. -/
def CId.list : CId → List Spec.Tag
  | .single i => [i.tag]
  | .double o i => [o.tag, i.tag]
  | .choice _ => []

theorem known_tag {k : Builtin} (h : known k = true) : ∃ n, k.universalTag = some n ∧ universalNumber k = some n := by
  cases k <;> first | exact ⟨_, rfl, rfl⟩ | cases h

theorem begins_of_safe {tree : Tree} {mod : Module} {t : AType} (h : TagSafe tree mod t) : Begins tree mod t := by
  induction h with
  | leaf hk => exact .leaf hk
  | sequence | seqOf | set | setOf | prefixed | prefixedChoice => constructor
  | choice h => exact h
  | reference ht _ ih => exact .reference ht ih

theorem outerIds_ne {tree : Tree} {mod : Module} {t : AType} (h : Begins tree mod t) : ∀ {f : Nat} {ids : List TagId},
    outerIds tree f mod t = .ok ids → ids ≠ [] := by
  induction h with
  | @leaf mod k hk =>
    intro f ids h
    cases f with
    | zero => rw [outerIds] at h; cases h
    | succ f =>
      obtain ⟨n, hn, _⟩ := known_tag hk
      rw [outerIds, if_neg (by rintro rfl; cases hk), hn] at h
      cases h; simp
  | sequence | seqOf | set | setOf =>
    intro f ids h
    cases f with
    | zero => rw [outerIds] at h; cases h
    | succ f => rw [outerIds] at h; cases h; simp
  | @choice mod as s hne _ ih =>
    intro f ids h
    cases f with
    | zero => rw [outerIds] at h; cases h
    | succ f =>
      rw [outerIds] at h
      split at h
      · cases h
        cases as with
        | nil => exact absurd rfl hne
        | cons a as => simp
      · rename_i hm
        obtain ⟨l, h1, h2⟩ := Res.bind_eq_ok.1 h
        cases h2
        cases as with
        | nil => exact absurd rfl hne
        | cons a as =>
          rw [List.mapM_cons] at h1
          obtain ⟨x, hx, h1⟩ := Res.bind_eq_ok.1 h1
          obtain ⟨xs, _, h1⟩ := Res.bind_eq_ok.1 h1
          cases h1
          have := ih hm a List.mem_cons_self hx
          simp [this]
  | prefixed =>
    intro f ids h
    cases f with
    | zero => rw [outerIds] at h; cases h
    | succ f => rw [outerIds] at h; cases h; simp
  | reference ht _ ih =>
    intro f ids h
    cases f with
    | zero => rw [outerIds] at h; cases h
    | succ f =>
      rw [outerIds, followRef_ok.2 ht, Res.ok_bind] at h
      exact ih h

/-- How an identifier stands for own tags. -/
inductive TagInfo.For (i : TagInfo) : List Spec.Tag → Prop where
  | choice : i.outer = none → i.choiceIds ≠ [] → i.isDefault = true → TagInfo.For i []
  | single : i.outer = none → i.choiceIds = [] → TagInfo.For i [i.inner.tag]
  | double {o : TagId} : i.outer = some o → i.isDefault = false → TagInfo.For i [o.tag, i.inner.tag]

theorem TagInfo.For.list {i : TagInfo} {ts : List Spec.Tag} (h : i.For ts) : i.cid.list = ts := by
  cases h with
  | choice h1 h2 =>
    have : i.choiceIds.length > 0 := List.length_pos_iff.2 h2
    simp [TagInfo.cid, h1, this, CId.list]
  | single h1 h2 => simp [TagInfo.cid, h1, h2, CId.list]
  | double h1 => simp [TagInfo.cid, h1, CId.list]

/-- `identifier` gives the tags of X.680. -/
theorem identifier_own {tree : Tree} {mod : Module} {t : AType} (h : TagSafe tree mod t) : ∀ {f : Nat} {info : TagInfo},
    identifier tree f mod t = .ok info → ∃ ts, OwnTags tree mod t ts ∧ info.For ts := by
  induction h with
  | @leaf mod k hk =>
    intro f info h
    cases f with
    | zero => rw [identifier] at h; cases h
    | succ f =>
      obtain ⟨n, hn, hu⟩ := known_tag hk
      rw [identifier, leafInfo, if_neg (by rintro rfl; cases hk), hn] at h
      cases h
      exact ⟨_, .leaf hu, .single rfl rfl⟩
  | sequence mod cs e =>
    intro f info h
    cases f with
    | zero => rw [identifier] at h; cases h
    | succ f => rw [identifier] at h; cases h; exact ⟨_, .sequence .., .single rfl rfl⟩
  | seqOf mod cs e =>
    intro f info h
    cases f with
    | zero => rw [identifier] at h; cases h
    | succ f => rw [identifier] at h; cases h; exact ⟨_, .seqOf .., .single rfl rfl⟩
  | set mod cs e =>
    intro f info h
    cases f with
    | zero => rw [identifier] at h; cases h
    | succ f => rw [identifier] at h; cases h; exact ⟨_, .set .., .single rfl rfl⟩
  | setOf mod cs e =>
    intro f info h
    cases f with
    | zero => rw [identifier] at h; cases h
    | succ f => rw [identifier] at h; cases h; exact ⟨_, .setOf .., .single rfl rfl⟩
  | @choice mod as s hb =>
    intro f info h
    cases f with
    | zero => rw [identifier] at h; cases h
    | succ f =>
      rw [identifier] at h
      obtain ⟨ids, h1, h2⟩ := Res.bind_eq_ok.1 h
      obtain ⟨_, _, h3⟩ := Res.bind_eq_ok.1 h2
      cases h3
      refine ⟨_, .choice .., .choice rfl ?_ rfl⟩
      show ids ≠ []
      cases hb with
      | choice hne hs =>
      unfold choiceIds at h1
      split at h1
      · cases as with
        | nil => exact absurd rfl hne
        | cons a as =>
          rw [autoChoiceIds] at h1
          obtain ⟨x, _, h1⟩ := Res.bind_eq_ok.1 h1
          obtain ⟨xs, _, h1⟩ := Res.bind_eq_ok.1 h1
          cases h1
          simp
      · rename_i hm
        obtain ⟨l, h4, h5⟩ := Res.bind_eq_ok.1 h1
        cases h5
        cases as with
        | nil => exact absurd rfl hne
        | cons a as =>
          rw [List.mapM_cons] at h4
          obtain ⟨x, hx, h4⟩ := Res.bind_eq_ok.1 h4
          obtain ⟨xs, _, h4⟩ := Res.bind_eq_ok.1 h4
          cases h4
          have := outerIds_ne (hs hm a List.mem_cons_self) hx
          simp [this]
  | @prefixed mod c n k t x ts hs ho hk hx ih =>
    intro f info h
    cases f with
    | zero => rw [identifier] at h; cases h
    | succ f =>
      rw [identifier] at h
      obtain ⟨child, h1, h2⟩ := Res.bind_eq_ok.1 h
      obtain ⟨ts', ho', hf⟩ := ih h1
      have hts := ho.unique ho'
      subst hts
      have hex := explicit_iff (k := k) (fun hu => by cases ownTags_untagged ho hu) hk
      by_cases hb : isExplicit mod k = true
      · have hnil := hx (hex.2 hb)
        subst hnil
        rw [hb] at h2
        cases h2
        generalize hg : [x] = l at hf
        cases hf with
        | choice => cases hg
        | double => cases hg
        | single h3 h4 => cases hg; exact ⟨_, .explicit_ (hex.2 hb) ho, .double (o := .ofTag c n) rfl rfl⟩
      · have hb' : isExplicit mod k = false := by simpa using hb
        have hne : ¬ ExplicitTag tree mod t k := fun h => hb (hex.1 h)
        rw [hb'] at h2
        generalize hg : x :: ts = l at hf
        cases hf with
        | choice => cases hg
        | single h3 h4 =>
          cases hg
          rw [h3] at h2
          cases h2
          exact ⟨_, .implicit hne ho, .single rfl rfl⟩
        | double h3 h4 =>
          cases hg
          rw [h3] at h2
          cases h2
          exact ⟨_, .implicit hne ho, .double (o := .ofTag c n) rfl rfl⟩
  | @prefixedChoice mod c n t hs ho hm ih =>
    intro f info h
    cases f with
    | zero => rw [identifier] at h; cases h
    | succ f =>
      rw [identifier] at h
      obtain ⟨child, h1, h2⟩ := Res.bind_eq_ok.1 h
      obtain ⟨ts', ho', hf⟩ := ih h1
      have hts := ho.unique ho'
      subst hts
      generalize hg : ([] : List Spec.Tag) = l at hf
      cases hf with
      | single => cases hg
      | double => cases hg
      | choice h3 h4 =>
        have : isExplicit mod .automatic = false := by simp [isExplicit, hm]
        rw [this, h3] at h2
        cases h2
        exact ⟨_, .explicit_ (.untagged (ownTags_nil ho)) ho, .single rfl rfl⟩
  | reference ht _ ih =>
    intro f info h
    cases f with
    | zero => rw [identifier] at h; cases h
    | succ f =>
      rw [identifier, followRef_ok.2 ht, Res.ok_bind] at h
      obtain ⟨ts, h1, h2⟩ := ih h
      exact ⟨ts, .reference ht h1, h2⟩

/-- A default identifier: no tags are written in front of the type or of what it refers to. -/
inductive Bare (tree : Tree) : Module → AType → Prop where
  | here {mod : Module} {t : AType} : isCore t = true → Bare tree mod t
  | reference {mod : Module} {m : Option Name} {ref : Name} {ps : List AType} {wm : Module} {t : AType} :
      target tree mod m ref = some (wm, t) → Bare tree wm t → Bare tree mod (.defined m ref ps)

theorem identifier_default {tree : Tree} : ∀ {f : Nat} {mod : Module} {t : AType} {info : TagInfo},
    identifier tree f mod t = .ok info → info.isDefault = true → Bare tree mod t
  | 0, _, _, _, h, _ => by rw [identifier] at h; cases h
  | f + 1, mod, t, info, h, hd => by
    cases t with
    | prefixed c n k t =>
      rw [identifier] at h
      obtain ⟨child, h1, h2⟩ := Res.bind_eq_ok.1 h
      split at h2 <;> (cases h2; cases hd)
    | defined m ref ps =>
      rw [identifier] at h
      obtain ⟨⟨wm, t'⟩, h1, h2⟩ := Res.bind_eq_ok.1 h
      exact .reference (followRef_ok.1 h1) (identifier_default h2 hd)
    | _ => exact .here rfl

/-- A type without written tags has lost none. -/
theorem Bare.not_lost {tree : Tree} {mod : Module} {t : AType} (h : Bare tree mod t) : ¬ Lost tree mod t := by
  induction h with
  | here h => intro hl; cases hl <;> cases h
  | reference ht _ ih =>
    intro hl
    cases hl with
    | reference ht' hl => rw [ht] at ht'; cases ht'; exact ih hl

end FastBer.Ast
