import Verif.Spec.Accepted
import Verif.Proofs.Pipeline
import Verif.Proofs.SplitSupported
import Verif.Proofs.StoredSupported
import Verif.Proofs.Settle
import Verif.Props.Depend
import Verif.Props.Modules
/-!
# Passes that have nothing to complain about
-/
namespace FastBer.Ast
open FastBer.Ast.Spec

/-! ## Relations without cycles -/

theorem acc_no_cycle {α : Type} {R : α → α → Prop} {a : α} (h : Acc (fun x y => R y x) a) : ¬ Relation.TransGen R a a := by
  have key : ∀ a, Acc (fun x y => R y x) a → ∀ b, Relation.TransGen R a b → ¬ Relation.TransGen R b a := by
    intro a h
    induction h with
    | intro a _ ih =>
      intro b hab hba
      have first : ∀ {b}, Relation.TransGen R a b → ∃ c, R a c ∧ (c = b ∨ Relation.TransGen R c b) := by
        intro b h
        induction h with
        | single h => exact ⟨_, h, .inl rfl⟩
        | tail _ h ih =>
          obtain ⟨c, h1, h2⟩ := ih
          refine ⟨c, h1, .inr ?_⟩
          rcases h2 with rfl | h2
          · exact .single h
          · exact .tail h2 h
      have trans : ∀ {x y z}, Relation.TransGen R x y → Relation.TransGen R y z → Relation.TransGen R x z := by
        intro x y z h1 h2
        induction h2 with
        | single h => exact .tail h1 h
        | tail _ h ih => exact .tail ih h
      obtain ⟨c, h1, h2⟩ := first hab
      have hca : Relation.TransGen R c a := by
        rcases h2 with rfl | h2
        · exact hba
        · exact trans h2 hba
      exact ih c h1 a hca (.single h1)
  exact fun h' => key a h a h' h'

theorem acc_of_no_cycle {α : Type} [DecidableEq α] {R : α → α → Prop} (l : List α) (hl : ∀ a b, R a b → a ∈ l) (hc : ¬ ∃ n, Relation.TransGen R n n) (a : α) : Acc (fun x y => R y x) a := by
  have key : ∀ k (vis : List α) (a : α), (l.filter (fun x => !vis.contains x)).length ≤ k → (∀ x ∈ vis, Relation.TransGen R x a) → Acc (fun x y => R y x) a := by
    intro k
    induction k with
    | zero =>
      intro vis a hk hv
      refine ⟨_, fun b hb => ?_⟩
      exfalso
      have ha := hl _ _ hb
      have hnv : a ∉ vis := fun h => hc ⟨a, hv a h⟩
      have : a ∈ l.filter (fun x => !vis.contains x) := List.mem_filter.2 ⟨ha, by simpa using hnv⟩
      rw [List.length_eq_zero_iff.1 (Nat.le_zero.1 hk)] at this
      cases this
    | succ k ih =>
      intro vis a hk hv
      refine ⟨_, fun b hb => ?_⟩
      have ha := hl _ _ hb
      have hnv : a ∉ vis := fun h => hc ⟨a, hv a h⟩
      refine ih (a :: vis) b ?_ ?_
      · have hm : a ∈ l.filter (fun x => !vis.contains x) := List.mem_filter.2 ⟨ha, by simpa using hnv⟩
        have hlt : (l.filter (fun x => !(a :: vis).contains x)).length < (l.filter (fun x => !vis.contains x)).length := by
          have : l.filter (fun x => !(a :: vis).contains x) = (l.filter (fun x => !vis.contains x)).filter (fun x => !(x == a)) := by
            rw [List.filter_filter]
            refine List.filter_congr fun x _ => ?_
            by_cases h : x = a <;> simp [h]
          rw [this]
          refine Nat.lt_of_le_of_ne (List.length_filter_le _ _) fun e => ?_
          have := List.filter_eq_self.1 (List.length_filter_eq_length_iff.1 e |> List.filter_eq_self.2) a hm
          simp at this
        omega
      · intro x hx
        rcases List.mem_cons.1 hx with rfl | hx
        · exact .single hb
        · exact .tail (hv x hx) hb
  exact key _ [] a (Nat.le_refl _) (fun x hx => by cases hx)

/-! ## What the split types mention -/

mutual
theorem nested_uses {own : Name} {A : Name → Prop} : ∀ (t : AType) (k : Nat),
    (∀ p ∈ (findNested own t k).2.1, (∀ w, Uses own (fun _ => True) (fun t => t = .leaf .enumerated) p.2 w → A w) → A p.1) →
    (∀ v, Uses own (fun _ => True) (fun t => t = .leaf .enumerated) t v → A v) →
    ∀ v, Uses own (fun _ => True) (fun t => t = .leaf .enumerated) (findNested own t k).1 v → A v
  | .leaf b, k, _, h, v, hv => h v hv
  | .objField q c fs, k, _, h, v, hv => h v hv
  | .defined q ref ps, k, _, h, v, hv => h v hv
  | .choice as s, k, hA, h, v, hv => by
    have hv : Uses own _ _ (.choice (findNestedAlts own as k).1 s) v := hv
    cases hv with
    | choice _ ha hu => exact nestedAlts_uses as k hA (fun a ha v hv => h v (.choice trivial ha hv)) _ ha v hu
  | .sequence cs e, k, hA, h, v, hv => by
    have hv : Uses own _ _ (.sequence (findNestedComps own cs k).1 e) v := hv
    cases hv with
    | sequence hc _ hu => exact (nestedComps_uses cs k hA (fun c hc v hv => h v (.sequence hc (fun _ => trivial) hv)) (fun c hc v h1 h2 => h v (.sequenceDefault hc h1 h2)) _ hc).1 v hu
    | sequenceDefault hc h1 h2 =>
      exact (nestedComps_uses cs k hA (fun c hc v hv => h v (.sequence hc (fun _ => trivial) hv)) (fun c hc v h1 h2 => h v (.sequenceDefault hc h1 h2)) _ hc).2 v h1 h2
  | .set cs e, k, hA, h, v, hv => by
    have hv : Uses own _ _ (.set (findNestedComps own cs k).1 e) v := hv
    cases hv with
    | set hc _ hu => exact (nestedComps_uses cs k hA (fun c hc v hv => h v (.set hc (fun _ => trivial) hv)) (fun c hc v h1 h2 => h v (.setDefault hc h1 h2)) _ hc).1 v hu
    | setDefault hc h1 h2 =>
      exact (nestedComps_uses cs k hA (fun c hc v hv => h v (.set hc (fun _ => trivial) hv)) (fun c hc v h1 h2 => h v (.setDefault hc h1 h2)) _ hc).2 v h1 h2
  | .seqOf n t s, k, hA, h, v, hv => by
    have hv : Uses own _ _ (.seqOf n (splitInner own (findNested own t k)).1 s) v := hv
    cases hv with
    | seqOf _ hu => exact splitInner_uses t k hA (fun v hv => h v (.seqOf trivial hv)) v hu
  | .setOf n t s, k, hA, h, v, hv => by
    have hv : Uses own _ _ (.setOf n (splitInner own (findNested own t k)).1 s) v := hv
    cases hv with
    | setOf _ hu => exact splitInner_uses t k hA (fun v hv => h v (.setOf trivial hv)) v hu
  | .prefixed c n md t, k, hA, h, v, hv => by
    have hv : Uses own _ _ (.prefixed c n md (splitInner own (findNested own t k)).1) v := hv
    cases hv with
    | prefixed hu => exact splitInner_uses t k hA (fun v hv => h v (.prefixed hv)) v hu
theorem splitInner_uses {own : Name} {A : Name → Prop} (t : AType) (k : Nat)
    (hA : ∀ p ∈ (splitInner own (findNested own t k)).2.1, (∀ w, Uses own (fun _ => True) (fun t => t = .leaf .enumerated) p.2 w → A w) → A p.1)
    (h : ∀ v, Uses own (fun _ => True) (fun t => t = .leaf .enumerated) t v → A v) :
    ∀ v, Uses own (fun _ => True) (fun t => t = .leaf .enumerated) (splitInner own (findNested own t k)).1 v → A v := by
  have ih := nested_uses (own := own) (A := A) t k
  generalize hr : findNested own t k = r at ih hA
  obtain ⟨t', ns, j⟩ := r
  unfold splitInner at hA ⊢
  cases hx : unnamedPrefix t' with
  | none =>
    simp only [hx] at hA ⊢
    exact ih hA h
  | some q =>
    simp only [hx] at hA ⊢
    intro v hv
    cases hv with
    | reference =>
      refine hA (q ++ toString j, t') (List.mem_append_right _ (List.mem_singleton.2 rfl)) ?_
      exact ih (fun p hp => hA p (List.mem_append_left _ hp)) h
theorem nestedAlts_uses {own : Name} {A : Name → Prop} : ∀ (as : List Named) (k : Nat),
    (∀ p ∈ (findNestedAlts own as k).2.1, (∀ w, Uses own (fun _ => True) (fun t => t = .leaf .enumerated) p.2 w → A w) → A p.1) →
    (∀ a ∈ as, ∀ v, Uses own (fun _ => True) (fun t => t = .leaf .enumerated) a.type v → A v) →
    ∀ a' ∈ (findNestedAlts own as k).1, ∀ v, Uses own (fun _ => True) (fun t => t = .leaf .enumerated) a'.type v → A v
  | [], _, _, _, a', ha', _, _ => by cases ha'
  | .mk n t :: as, k, hA, h, a', ha', v, hv => by
    rw [findNestedAlts] at ha' hA
    rcases List.mem_cons.1 ha' with rfl | ha'
    · exact nested_uses t k (fun p hp => hA p (List.mem_append_left _ hp)) (h _ List.mem_cons_self) v hv
    · exact nestedAlts_uses as _ (fun p hp => hA p (List.mem_append_right _ hp)) (fun a ha => h a (List.mem_cons_of_mem _ ha)) a' ha' v hv
theorem nestedComps_uses {own : Name} {A : Name → Prop} : ∀ (cs : List Comp) (k : Nat),
    (∀ p ∈ (findNestedComps own cs k).2.1, (∀ w, Uses own (fun _ => True) (fun t => t = .leaf .enumerated) p.2 w → A w) → A p.1) →
    (∀ c ∈ cs, ∀ v, Uses own (fun _ => True) (fun t => t = .leaf .enumerated) c.type v → A v) →
    (∀ c ∈ cs, ∀ v, c.default = some (.defined v) → ¬ c.type = .leaf .enumerated → A v) →
    ∀ c' ∈ (findNestedComps own cs k).1, (∀ v, Uses own (fun _ => True) (fun t => t = .leaf .enumerated) c'.type v → A v) ∧
      ∀ v, c'.default = some (.defined v) → ¬ c'.type = .leaf .enumerated → A v
  | [], _, _, _, _, c', hc' => by cases hc'
  | .mk n t o d co s :: cs, k, hA, h, hd, c', hc' => by
    rw [findNestedComps] at hc' hA
    rcases List.mem_cons.1 hc' with rfl | hc'
    · refine ⟨nested_uses t k (fun p hp => hA p (List.mem_append_left _ hp)) (h _ List.mem_cons_self), fun v h1 h2 => ?_⟩
      refine hd _ List.mem_cons_self v h1 fun e => h2 ?_
      show (findNested own t k).1 = _
      have e : t = _ := e
      rw [e]
      rfl
    · exact nestedComps_uses cs _ (fun p hp => hA p (List.mem_append_right _ hp)) (fun a ha => h a (List.mem_cons_of_mem _ ha)) (fun a ha => hd a (List.mem_cons_of_mem _ ha)) c' hc'
end

/-! ## References inside -/

/-- At or inside. -/
def Within (t u : AType) : Prop := t = u ∨ Inside t u

theorem Within.child {t c u : AType} (h : Child t c) (h' : Within c u) : Within t u := by
  rcases h' with rfl | h'
  · exact .inr (.single h)
  · refine .inr ?_
    unfold Inside at *
    induction h' with
    | single h' => exact .tail (.single h) h'
    | tail _ h' ih => exact .tail ih h'

theorem within_cases {t u : AType} (h : Within t u) : t = u ∨ ∃ c, Child t c ∧ Within c u := by
  rcases h with rfl | h
  · exact .inl rfl
  · refine .inr ?_
    unfold Inside at h
    induction h with
    | single h => exact ⟨_, h, .inl rfl⟩
    | tail h1 h2 ih =>
      obtain ⟨c, h3, h4⟩ := ih
      refine ⟨c, h3, .inr ?_⟩
      rcases h4 with rfl | h4
      · exact .single h2
      · exact .tail h4 h2

theorem within_trans {t u w : AType} (h : Within t u) (h' : Within u w) : Within t w := by
  rcases h with rfl | h
  · exact h'
  · rcases h' with rfl | h'
    · exact .inr h
    · refine .inr ?_
      unfold Inside at *
      induction h' with
      | single h' => exact .tail h h'
      | tail _ h' ih => exact .tail ih h'

mutual
theorem nested_refs {own : Name} {q : Option Name} {n : Name} {ps : List AType} : ∀ (t : AType) (k : Nat), Within (findNested own t k).1 (.defined q n ps) →
    Within t (.defined q n ps) ∨ q = some own
  | .leaf b, k, h => .inl h
  | .objField _ c fs, k, h => .inl h
  | .defined _ ref _, k, h => .inl h
  | .choice as s, k, h => by
    rcases within_cases h with h | ⟨c, hc, h⟩
    · cases h
    · have hc : Child (.choice (findNestedAlts own as k).1 s) c := hc
      cases hc with
      | choice ha =>
        obtain ⟨a, ha', h'⟩ := nestedAlts_refs as k _ ha h
        exact h'.imp_left (.child (.choice ha'))
  | .sequence cs e, k, h => by
    rcases within_cases h with h | ⟨c, hc, h⟩
    · cases h
    · have hc : Child (.sequence (findNestedComps own cs k).1 e) c := hc
      cases hc with
      | sequence ha =>
        obtain ⟨a, ha', h'⟩ := nestedComps_refs cs k _ ha h
        exact h'.imp_left (.child (.sequence ha'))
  | .set cs e, k, h => by
    rcases within_cases h with h | ⟨c, hc, h⟩
    · cases h
    · have hc : Child (.set (findNestedComps own cs k).1 e) c := hc
      cases hc with
      | set ha =>
        obtain ⟨a, ha', h'⟩ := nestedComps_refs cs k _ ha h
        exact h'.imp_left (.child (.set ha'))
  | .seqOf n t s, k, h => by
    rcases within_cases h with h | ⟨c, hc, h⟩
    · cases h
    · have hc : Child (.seqOf n (splitInner own (findNested own t k)).1 s) c := hc
      generalize hx : (splitInner own (findNested own t k)).1 = x at hc
      cases hc
      subst hx
      exact (splitInner_refs t k h).imp_left (.child .seqOf)
  | .setOf n t s, k, h => by
    rcases within_cases h with h | ⟨c, hc, h⟩
    · cases h
    · have hc : Child (.setOf n (splitInner own (findNested own t k)).1 s) c := hc
      generalize hx : (splitInner own (findNested own t k)).1 = x at hc
      cases hc
      subst hx
      exact (splitInner_refs t k h).imp_left (.child .setOf)
  | .prefixed c n md t, k, h => by
    rcases within_cases h with h | ⟨c', hc, h⟩
    · cases h
    · have hc : Child (.prefixed c n md (splitInner own (findNested own t k)).1) c' := hc
      generalize hx : (splitInner own (findNested own t k)).1 = x at hc
      cases hc
      subst hx
      exact (splitInner_refs t k h).imp_left (.child .prefixed)
theorem splitInner_refs {own : Name} {q : Option Name} {n : Name} {ps : List AType} (t : AType) (k : Nat) (h : Within (splitInner own (findNested own t k)).1 (.defined q n ps)) :
    Within t (.defined q n ps) ∨ q = some own := by
  have ih := nested_refs (own := own) (q := q) (n := n) (ps := ps) t k
  generalize hr : findNested own t k = r at ih h
  obtain ⟨t', ns, j⟩ := r
  unfold splitInner at h
  cases hx : unnamedPrefix t' with
  | none =>
    simp only [hx] at h
    exact ih h
  | some p =>
    simp only [hx] at h
    rcases within_cases h with h | ⟨c, hc, -⟩
    · cases h; exact .inr rfl
    · cases hc
theorem nestedAlts_refs {own : Name} {q : Option Name} {n : Name} {ps : List AType} : ∀ (as : List Named) (k : Nat), ∀ a' ∈ (findNestedAlts own as k).1, Within a'.type (.defined q n ps) →
    ∃ a ∈ as, Within a.type (.defined q n ps) ∨ q = some own
  | [], _, a', ha', _ => by cases ha'
  | .mk x t :: as, k, a', ha', h => by
    rw [findNestedAlts] at ha'
    rcases List.mem_cons.1 ha' with rfl | ha'
    · exact ⟨_, List.mem_cons_self, nested_refs t k h⟩
    · obtain ⟨a, h1, h2⟩ := nestedAlts_refs as _ a' ha' h
      exact ⟨a, List.mem_cons_of_mem _ h1, h2⟩
theorem nestedComps_refs {own : Name} {q : Option Name} {n : Name} {ps : List AType} : ∀ (cs : List Comp) (k : Nat), ∀ c' ∈ (findNestedComps own cs k).1, Within c'.type (.defined q n ps) →
    ∃ c ∈ cs, Within c.type (.defined q n ps) ∨ q = some own
  | [], _, c', hc', _ => by cases hc'
  | .mk x t o d co s :: cs, k, c', hc', h => by
    rw [findNestedComps] at hc'
    rcases List.mem_cons.1 hc' with rfl | hc'
    · exact ⟨_, List.mem_cons_self, nested_refs t k h⟩
    · obtain ⟨c, h1, h2⟩ := nestedComps_refs cs _ c' hc' h
      exact ⟨c, List.mem_cons_of_mem _ h1, h2⟩
end

end FastBer.Ast
