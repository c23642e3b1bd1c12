import Verif.Proofs.ForwardOk
/-!
# No generated CHOICE contains itself without a tag in between
-/
namespace FastBer.Ast.Fwd
open Spec

/-- The type is an untagged CHOICE, and `outer_identifiers` needs no more than `f` nested calls for it. -/
def Depth (lib : Lib) (tree : Tree) (E : REnv Key) (n : Key) (f : Nat) : Prop :=
  ∃ ids as wm as' s, E n = .choice (.untagged ids) as ∧ Occurs tree wm (.choice as' s) ∧ as.Body lib tree wm (choices wm as') ∧
    ∃ l, outerIds tree f wm (.choice as' s) = .ok l

theorem exists_least {P : Nat → Prop} : ∀ {f : Nat}, P f → ∃ g, P g ∧ ∀ g', P g' → g ≤ g' := by
  intro f
  induction f using Nat.strongRecOn with
  | ind f ih =>
    intro h
    by_cases hs : ∃ g, g < f ∧ P g
    · obtain ⟨g, h1, h2⟩ := hs
      exact ih g h1 h2
    · exact ⟨f, h, fun g' hg' => Nat.le_of_not_lt fun hlt => hs ⟨g', hlt, hg'⟩⟩

open Classical in
/-- Least such number. -/
noncomputable def rank (lib : Lib) (tree : Tree) (E : REnv Key) (n : Key) : Nat :=
  if h : ∃ g, Depth lib tree E n g ∧ ∀ g', Depth lib tree E n g' → g ≤ g' then Classical.choose h else 0

section
variable {lib : Lib} {tree : Tree} {E : REnv Key}

theorem rank_depth {n : Key} {f : Nat} (h : Depth lib tree E n f) : Depth lib tree E n (rank lib tree E n) ∧ rank lib tree E n ≤ f := by
  have := exists_least h
  unfold rank
  rw [dif_pos this]
  obtain ⟨h1, h2⟩ := Classical.choose_spec this
  exact ⟨h1, h2 f h⟩

theorem rank_zero {n : Key} (h : ∀ ids as, E n ≠ .choice (.untagged ids) as) : rank lib tree E n = 0 := by
  unfold rank
  rw [dif_neg]
  rintro ⟨g, ⟨ids, as, _, _, _, h1, _⟩, _⟩
  exact h ids as h1

/-- `outer_identifiers` of the alternatives. -/
theorem depth_alternatives {f : Nat} {mod : Module} {as : List Named} {s : Storage} (hS : Supported tree) (hoc : Occurs tree mod (.choice as s)) {l : List TagId}
    (h : outerIds tree f mod (.choice as s) = .ok l) :
    ∃ g, f = g + 1 ∧ ∀ t ∈ choices mod as, (∃ l, outerIds tree g mod t = .ok l) ∨ hasTag t = true := by
  cases f with
  | zero => rw [outerIds] at h; cases h
  | succ g =>
    refine ⟨g, rfl, fun t ht => ?_⟩
    rw [outerIds] at h
    by_cases hm : mod.tagging = .automatic
    · right
      rw [choices, autoTags_automatic hm fun a ha => hS.autoUntagged _ _ _ (.choice hoc ha) hm] at ht
      obtain ⟨i, hi, rfl⟩ := List.mem_mapIdx.1 ht
      rfl
    · left
      rw [if_neg hm] at h
      obtain ⟨idss, h1, h2⟩ := Res.bind_eq_ok.1 h
      rw [choices, autoTags_other hm] at ht
      obtain ⟨a, ha, rfl⟩ := List.mem_map.1 ht
      exact mapM_each h1 a ha

mutual
theorem heads_depth (hS : Supported tree) (hL : Legal tree) (hl : Linked lib tree E) : ∀ (R : RTy Key) (mod : Module) (t : AType) (f : Nat) (m : Key),
    R.Is lib tree mod t → Known tree mod t → Placed tree mod t → ((∃ l, outerIds tree f mod t = .ok l) ∨ hasTag t = true) → m ∈ R.heads →
    (∀ ids as, E m ≠ .choice (.untagged ids) as) ∨ ∃ f', f' ≤ f ∧ Depth lib tree E m f'
  | .ref k, mod, t, f, m, h, hk, hp, hf, hm => by
    rw [RTy.heads] at hm
    have hmk : m = k := List.mem_singleton.1 hm
    subst hmk
    rcases is_cases (hl.proper m) (hl.ref m mod t h hk.bound) with ⟨ids, as, he, ho, wm, as', s, hc, hb, _⟩ | ⟨hne, _⟩
    · right
      rcases hf with ⟨l, hf⟩ | hf
      · obtain ⟨f', h1, h2⟩ := outer_core f mod t l wm _ ho hc hf
        exact ⟨f', h1, ids, as, wm, as', s, he, hk.core _ _ hc, hb, l, h2⟩
      · cases t with
        | prefixed => cases ho
        | _ => cases hf
    · exact .inl hne
  | .choice (.untagged ids) as, mod, t, f, m, h, hk, hp, hf, hm => by
    obtain ⟨⟨wm, as', s, hc, hb, _⟩, ts, ho, hts⟩ := h
    cases hts
    rcases hf with ⟨l, hf⟩ | hf
    · obtain ⟨f', h1, h2⟩ := outer_core f mod t l wm _ ho hc hf
      have hoc := hk.core _ _ hc
      obtain ⟨g, rfl, hg⟩ := depth_alternatives hS hoc h2
      rw [RTy.heads] at hm
      rcases alts_depth hS hL hl as wm _ g m hb (fun u hu => ⟨known_choice hL hoc hu, placed_choice hoc hu, hg u hu⟩) hm with h3 | ⟨f', h3, h4⟩
      · exact .inl h3
      · exact .inr ⟨f', by omega, h4⟩
    · cases t with
      | prefixed => cases ho
      | _ => cases hf
  | .choice (.tagged _) as, mod, t, f, m, h, hk, hp, hf, hm => by rw [RTy.heads] at hm <;> first | cases hm | simp
  | .leaf _ _, mod, t, f, m, h, hk, hp, hf, hm => by cases hm
  | .seqOf _ _, mod, t, f, m, h, hk, hp, hf, hm => by cases hm
  | .seq _ _, mod, t, f, m, h, hk, hp, hf, hm => by cases hm
  | .set _ _ _, mod, t, f, m, h, hk, hp, hf, hm => by cases hm
theorem alts_depth (hS : Supported tree) (hL : Legal tree) (hl : Linked lib tree E) : ∀ (as : RAlts Key) (mod : Module) (ts : List AType) (f : Nat) (m : Key),
    as.Body lib tree mod ts → (∀ t ∈ ts, Known tree mod t ∧ Placed tree mod t ∧ ((∃ l, outerIds tree f mod t = .ok l) ∨ hasTag t = true)) → m ∈ as.heads →
    (∀ ids as, E m ≠ .choice (.untagged ids) as) ∨ ∃ f', f' ≤ f ∧ Depth lib tree E m f'
  | .nil, _, _, _, _, _, _, hm => by cases hm
  | .cons _ T rest, mod, ts, f, m, ⟨t, ts', hts, _, h1, h2, h3⟩, hk, hm => by
    subst hts
    rw [RAlts.heads] at hm
    rcases List.mem_append.1 hm with hm | hm
    · obtain ⟨k1, k2, k3⟩ := hk t List.mem_cons_self
      exact heads_depth hS hL hl T mod t f m ⟨h1, h2⟩ k1 k2 k3 hm
    · exact alts_depth hS hL hl rest mod ts' f m h3 (fun u hu => hk u (List.mem_cons_of_mem _ hu)) hm
end

/-- Going down inside untagged CHOICEs ends. -/
theorem rank_lt (hS : Supported tree) (hL : Legal tree) (hl : Linked lib tree E) {n m : Key} (hm : m ∈ (E n).heads) :
    rank lib tree E m < rank lib tree E n := by
  cases hn : E n with
  | ref k => exact (hl.notRef n k hn).elim
  | leaf _ _ => rw [hn] at hm; cases hm
  | seqOf _ _ => rw [hn] at hm; cases hm
  | seq _ _ => rw [hn] at hm; cases hm
  | set _ _ _ => rw [hn] at hm; cases hm
  | choice cid as =>
    cases cid with
    | tagged id => rw [hn] at hm; cases hm
    | untagged ids =>
      rw [hn, RTy.heads] at hm
      rcases hl.each n with hu | ⟨mod, t, hoc, hb, _⟩
      · rw [hn] at hu; cases hu
      · rw [hn] at hb
        obtain ⟨wm, as', s, hc, hb', f, l, hf, _⟩ := hb
        have hd : Depth lib tree E n f := ⟨ids, as, wm, as', s, hn, occurs_core hc hoc, hb', l, hf⟩
        obtain ⟨⟨ids1, as1, wm1, as2, s1, e1, hoc1, hb1, l1, hf1⟩, _⟩ := rank_depth hd
        rw [hn] at e1
        cases e1
        obtain ⟨g, hg, hg'⟩ := depth_alternatives hS hoc1 hf1
        rcases alts_depth hS hL hl as wm1 _ g m hb1 (fun u hu => ⟨known_choice hL hoc1 hu, placed_choice hoc1 hu, hg' u hu⟩) hm with h3 | ⟨f', h3, h4⟩
        · rw [rank_zero h3]; omega
        · have := (rank_depth h4).2
          omega

end

theorem le_max_of_mem {α : Type} (g : α → Nat) : ∀ {l : List α} {a : α}, a ∈ l → g a ≤ l.foldr (fun x m => max (g x) m) 0
  | b :: l, a, h => by
    rw [List.foldr_cons]
    rcases List.mem_cons.1 h with rfl | h
    · omega
    · have := le_max_of_mem g h
      omega

theorem program_grounded {lib : Lib} {tree : Tree} (hS : Supported tree) (hL : Legal tree) {fuel : Nat} {env : Env} (h : generate lib fuel tree = .ok env) :
    ∃ (rank : Key → Nat) (R : Nat), (∀ n, rank n ≤ R) ∧ ∀ n m, m ∈ (env.program n).heads → rank m < rank n := by
  have hl := program_linked hS hL h
  refine ⟨rank lib tree env.program, env.spaces.foldr (fun p m => max (rank lib tree env.program ⟨p.1.1, p.1.2, none⟩) m) 0, fun n => ?_, fun n m hm => rank_lt hS hL hl hm⟩
  have hz : (∀ ids as, env.program n ≠ .choice (.untagged ids) as) → rank lib tree env.program n ≤ env.spaces.foldr (fun p m => max (rank lib tree env.program ⟨p.1.1, p.1.2, none⟩) m) 0 := by
    intro h
    rw [rank_zero h]
    omega
  rcases program_cases env n with hu | ⟨T, h1, h2, ⟨h3, h4⟩ | ⟨id, T', h3, h4, h5, h6⟩⟩
  · exact hz fun ids as h => by rw [hu] at h; cases h
  · have hmem := lookup_mem (typeOf_lookup h1)
    have := le_max_of_mem (fun p : (Name × Name) × Ent => rank lib tree env.program ⟨p.1.1, p.1.2, none⟩) hmem
    obtain ⟨m, r, i⟩ := n
    cases h3
    exact this
  · refine hz fun ids as he => ?_
    rw [h6] at he
    subst he
    cases T with
    | ref k => cases h2
    | leaf l i => rw [withId] at h4; cases h4
    | seqOf i T => rw [withId] at h4; cases h4
    | seq i fs =>
      rw [withId] at h4
      obtain ⟨j, _, h4⟩ := Res.bind_eq_ok.1 h4
      cases h4
    | set i e fs =>
      rw [withId] at h4
      obtain ⟨j, _, h4⟩ := Res.bind_eq_ok.1 h4
      cases h4
    | choice cid as =>
      rw [withId] at h4
      cases id with
      | single i => cases h4
      | double o i => cases h4
      | choice l => cases h5

/-- The output is a legal program of named types, if its default constructors return. -/
theorem program_ok {lib : Lib} {tree : Tree} (hS : Supported tree) (hL : Legal tree) (hD : lib.Defaults) {fuel : Nat} {env : Env} (h : generate lib fuel tree = .ok env)
    (hn : ∃ k, ∀ n, ∃ o, env.program.new n k = .ok o) : env.program.Ok where
  wf := (program_linked hS hL h).wf hS hL hD
  proper := (program_linked hS hL h).notRef
  defaults := (program_linked hS hL h).defaults
  grounded := program_grounded hS hL h
  constructible := hn

end FastBer.Ast.Fwd
