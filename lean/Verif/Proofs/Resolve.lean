import Verif.Model.Resolve
import Verif.Spec.Resolve
/-! Lemmas about `resolveDefined`. -/
namespace FastBer.Ast
open Spec

theorem findModule_ok {tree : Tree} {n : Name} {m : Module} (h : findModule tree n = .ok m) :
    tree.modules.find? (·.name == n) = some m ∧ m.name = n ∧ m ∈ tree.modules := by
  unfold findModule at h
  split at h
  · rename_i x hx
    simp only [Res.ok.injEq] at h
    subst h
    exact ⟨hx, by simpa using List.find?_some hx, List.mem_of_find?_eq_some hx⟩
  · cases h

theorem findAssignment_ok {m : Module} {n : Name} {a : Assignment} (h : findAssignment m n = .ok a) :
    m.assignments.find? (·.name == n) = some a ∧ a.name = n ∧ a ∈ m.assignments := by
  unfold findAssignment at h
  split at h
  · rename_i x hx
    simp only [Res.ok.injEq] at h
    subst h
    exact ⟨hx, by simpa using List.find?_some hx, List.mem_of_find?_eq_some hx⟩
  · cases h

/-- The two searches succeed exactly when the specification finds an assignment. -/
theorem lookup_some {tree : Tree} {mod ref : Name} {b : Body} : lookup tree mod ref = some b ↔
    ∃ m a, findModule tree mod = .ok m ∧ findAssignment m ref = .ok a ∧ a.body = b := by
  unfold lookup findModule
  cases hm : tree.modules.find? (·.name == mod) with
  | none => simp
  | some m =>
    simp only [Option.bind_some, Res.ok.injEq]
    unfold findAssignment
    constructor
    · intro h
      cases ha : m.assignments.find? (·.name == ref) with
      | none => simp [ha] at h
      | some a => exact ⟨m, a, rfl, by simp [ha], by simpa [ha] using h⟩
    · rintro ⟨m', a, rfl, h, rfl⟩
      cases ha : m.assignments.find? (·.name == ref) with
      | none => simp [ha] at h
      | some a' => simp only [ha, Res.ok.injEq] at h; simp [h]

theorem findModule_cases (tree : Tree) (n : Name) :
    (∃ m, findModule tree n = .ok m) ∨ ∃ e, findModule tree n = .throw e := by
  unfold findModule; split <;> simp

theorem findAssignment_cases (m : Module) (n : Name) :
    (∃ a, findAssignment m n = .ok a) ∨ ∃ e, findAssignment m n = .throw e := by
  unfold findAssignment; split <;> simp

/-- Allowing more references does not change a result. -/
theorem resolveDefined_mono (tree : Tree) (cur : Name) : ∀ (fuel : Nat) (module : Name) (m : Option Name)
    (ref : Name) (r : Res Resolved), resolveDefined tree cur fuel module m ref = r → r ≠ .loop →
    resolveDefined tree cur (fuel + 1) module m ref = r := by
  intro fuel
  induction fuel with
  | zero => intro module m ref r h hr; rw [resolveDefined] at h; exact absurd h.symm hr
  | succ fuel ih =>
    intro module m ref r h hr
    rw [resolveDefined] at h ⊢
    rcases findModule_cases tree (m.getD module) with ⟨wm, hw⟩ | ⟨e, hw⟩
    · rw [hw, Res.ok_bind] at h ⊢
      rcases findAssignment_cases wm ref with ⟨a, ha⟩ | ⟨e, ha⟩
      · rw [ha, Res.ok_bind] at h ⊢
        split at h
        · exact ih _ _ _ _ h hr
        · rename_i c n k m' ref' ps hb
          generalize hg : resolveDefined tree cur fuel cur m' ref' = g at h
          cases g with
          | loop => simp at h; exact absurd h.symm hr
          | ok x => rw [ih _ _ _ _ hg (by simp)]; exact h
          | throw e => rw [ih _ _ _ _ hg (by simp)]; exact h
          | ub => rw [ih _ _ _ _ hg (by simp)]; exact h
        · exact h
        · exact h
      · rw [ha] at h ⊢; exact h
    · rw [hw] at h ⊢; exact h

theorem resolveDefined_mono_le {tree : Tree} {cur : Name} {fuel fuel' : Nat} {module : Name}
    {m : Option Name} {ref : Name} {r : Res Resolved} (h : resolveDefined tree cur fuel module m ref = r)
    (hr : r ≠ .loop) (hle : fuel ≤ fuel') : resolveDefined tree cur fuel' module m ref = r := by
  induction hle with
  | refl => exact h
  | step _ ih => exact resolveDefined_mono _ _ _ _ _ _ _ ih hr

/-- Tagged references without a module name are written only in module `cur`. -/
def TaggedRefsLocal (tree : Tree) (cur : Name) : Prop :=
  ∀ m ∈ tree.modules, ∀ a ∈ m.assignments, ∀ c n k r ps,
    a.body = .type (.prefixed c n k (.defined none r ps)) → m.name = cur

theorem TaggedRefsLocal.getD {tree : Tree} {cur mod ref : Name} (h : TaggedRefsLocal tree cur)
    {c n k m r ps} (hl : lookup tree mod ref = some (.type (.prefixed c n k (.defined m r ps)))) :
    m.getD cur = m.getD mod := by
  cases m with
  | some x => rfl
  | none =>
    obtain ⟨wm, a, hw, ha, hb⟩ := lookup_some.1 hl
    have hw := findModule_ok hw
    have ha := findAssignment_ok ha
    have := h wm hw.2.2 a ha.2.2 c n k r ps hb
    simp only [Option.getD_none]
    rw [← this, hw.2.1]

/-- What one round of the loop does, in terms of the specification's `lookup`. -/
theorem resolveDefined_step (tree : Tree) (cur : Name) (fuel : Nat) (module : Name) (m : Option Name) (ref : Name) :
    (∃ e, resolveDefined tree cur (fuel + 1) module m ref = .throw e ∧
      ∀ t, lookup tree (m.getD module) ref ≠ some (.type t)) ∨
    (∃ m' r' ps, lookup tree (m.getD module) ref = some (.type (.defined m' r' ps)) ∧
      resolveDefined tree cur (fuel + 1) module m ref = resolveDefined tree cur fuel (m.getD module) m' r') ∨
    (∃ c n k m' r' ps, lookup tree (m.getD module) ref = some (.type (.prefixed c n k (.defined m' r' ps))) ∧
      resolveDefined tree cur (fuel + 1) module m ref = (do
        let inner ← resolveDefined tree cur fuel cur m' r'
        .ok ⟨ref, .prefixed c n k inner.type, inner.module⟩)) ∨
    (∃ t wm, lookup tree (m.getD module) ref = some (.type t) ∧ (∀ x y, ¬ RefersTo (m.getD module) t x y) ∧
      resolveDefined tree cur (fuel + 1) module m ref = .ok ⟨ref, t, wm⟩ ∧ wm.name = m.getD module) := by
  rw [resolveDefined]
  rcases findModule_cases tree (m.getD module) with ⟨wm, hw⟩ | ⟨e, hw⟩
  · rcases findAssignment_cases wm ref with ⟨a, ha⟩ | ⟨e, ha⟩
    · have hl : lookup tree (m.getD module) ref = some a.body := lookup_some.2 ⟨wm, a, hw, ha, rfl⟩
      have hn := (findAssignment_ok ha).2.1
      have hwn := (findModule_ok hw).2.1
      rw [hw, Res.ok_bind, ha, Res.ok_bind, hl, hn]
      split
      · rename_i m' r' ps hb
        exact Or.inr (Or.inl ⟨m', r', ps, by rw [hb], rfl⟩)
      · rename_i c n k m' r' ps hb
        exact Or.inr (Or.inr (Or.inl ⟨c, n, k, m', r', ps, by rw [hb], rfl⟩))
      · rename_i t h1 h2 hb
        refine Or.inr (Or.inr (Or.inr ⟨t, wm, by rw [hb], ?_, rfl, hwn⟩))
        intro x y hr
        cases hr with
        | direct m' ref' ps => exact h1 _ _ _ rfl
        | tagged c n k m' ref' ps => exact h2 _ _ _ _ _ _ rfl
      · rename_i h1 h2 h3
        exact Or.inl ⟨_, rfl, fun t ht => h3 t (by simpa using ht)⟩
    · refine Or.inl ⟨e, by rw [hw, Res.ok_bind, ha]; rfl, fun t ht => ?_⟩
      obtain ⟨m1, a1, h1, h2, _⟩ := lookup_some.1 ht
      rw [hw] at h1; cases h1; rw [ha] at h2; cases h2
  · refine Or.inl ⟨e, by rw [hw]; rfl, fun t ht => ?_⟩
    obtain ⟨m1, a1, h1, _, _⟩ := lookup_some.1 ht
    rw [hw] at h1; cases h1

theorem resolveDefined_sound {tree : Tree} {cur : Name} (hloc : TaggedRefsLocal tree cur) : ∀ (fuel : Nat) (module : Name)
    (m : Option Name) (ref : Name) (r : Resolved), resolveDefined tree cur fuel module m ref = .ok r →
    StandsFor tree (m.getD module) ref r.name r.type r.module.name := by
  intro fuel
  induction fuel with
  | zero => intro module m ref r h; rw [resolveDefined] at h; cases h
  | succ fuel ih =>
    intro module m ref r h
    rcases resolveDefined_step tree cur fuel module m ref with ⟨e, he, _⟩ | ⟨m', r', ps, hl, he⟩ |
      ⟨c, n, k, m', r', ps, hl, he⟩ | ⟨t, wm, hl, hn, he, hwn⟩
    · rw [he] at h; cases h
    · rw [he] at h; exact .alias hl (ih _ _ _ _ h)
    · rw [he] at h
      obtain ⟨x, hx, hr⟩ := Res.bind_eq_ok.1 h
      simp only [Res.ok.injEq] at hr
      subst hr
      have := ih _ _ _ _ hx
      rw [hloc.getD hl] at this
      exact .tagged hl this
    · rw [he] at h
      simp only [Res.ok.injEq] at h
      subst h
      simp only [hwn]
      exact .here hl hn

theorem resolveDefined_complete {tree : Tree} {cur : Name} (hloc : TaggedRefsLocal tree cur) {mod ref n mod' : Name} {t : AType}
    (h : StandsFor tree mod ref n t mod') : ∀ (module : Name) (m : Option Name), m.getD module = mod →
    ∃ fuel wm, resolveDefined tree cur fuel module m ref = .ok ⟨n, t, wm⟩ ∧ wm.name = mod' := by
  induction h with
  | @here mod ref t hl hn =>
    intro module m hm
    subst hm
    rcases resolveDefined_step tree cur 0 module m ref with ⟨e, he, h⟩ | ⟨m', r', ps, hl', he⟩ |
      ⟨c, n, k, m', r', ps, hl', he⟩ | ⟨t', wm, hl', hn', he, hwn⟩
    · exact absurd hl (h t)
    · rw [hl] at hl'; cases hl'; exact absurd (.direct _ _ _) (hn _ _)
    · rw [hl] at hl'; cases hl'; exact absurd (.tagged _ _ _ _ _ _) (hn _ _)
    · rw [hl] at hl'; cases hl'; exact ⟨1, wm, he, hwn⟩
  | @alias mod ref m1 r1 ps n mod' t hl _ ih =>
    intro module m hm
    subst hm
    obtain ⟨fuel, wm, h1, h2⟩ := ih (m.getD module) m1 rfl
    refine ⟨fuel + 1, wm, ?_, h2⟩
    rcases resolveDefined_step tree cur fuel module m ref with ⟨e, he, h⟩ | ⟨m', r', ps, hl', he⟩ |
      ⟨c, n, k, m', r', ps, hl', he⟩ | ⟨t', wm, hl', hn', he, hwn⟩
    · exact absurd hl (h _)
    · rw [hl] at hl'; cases hl'; rw [he]; exact h1
    · rw [hl] at hl'; cases hl'
    · rw [hl] at hl'; cases hl'; exact absurd (.direct _ _ _) (hn' _ _)
  | @tagged mod ref c k tm m1 r1 ps n mod' t hl _ ih =>
    intro module m hm
    subst hm
    obtain ⟨fuel, wm, h1, h2⟩ := ih cur m1 (hloc.getD hl)
    refine ⟨fuel + 1, wm, ?_, h2⟩
    rcases resolveDefined_step tree cur fuel module m ref with ⟨e, he, h⟩ | ⟨m', r', ps, hl', he⟩ |
      ⟨c, n, k, m', r', ps, hl', he⟩ | ⟨t', wm, hl', hn', he, hwn⟩
    · exact absurd hl (h _)
    · rw [hl] at hl'; cases hl'
    · rw [hl] at hl'; cases hl'; rw [he, h1]; rfl
    · rw [hl] at hl'; cases hl'; exact absurd (.tagged _ _ _ _ _ _) (hn' _ _)

theorem next_cases {tree : Tree} {p q : Name × Name} (h : Next tree p q) :
    (∃ m r ps, lookup tree p.1 p.2 = some (.type (.defined m r ps)) ∧ q = (m.getD p.1, r)) ∨
    (∃ c n k m r ps, lookup tree p.1 p.2 = some (.type (.prefixed c n k (.defined m r ps))) ∧ q = (m.getD p.1, r)) := by
  obtain ⟨t, hl, hr⟩ := h
  generalize hx : q.1 = x at hr
  generalize hy : q.2 = y at hr
  cases hr with
  | direct m r ps => exact Or.inl ⟨m, _, ps, hl, Prod.ext hx hy⟩
  | tagged c n k m r ps => exact Or.inr ⟨c, n, k, m, _, ps, hl, Prod.ext hx hy⟩

/-- An endless chain of references is followed for ever. -/
theorem resolveDefined_endless {tree : Tree} {cur : Name} (hloc : TaggedRefsLocal tree cur) : ∀ (fuel : Nat) (module : Name)
    (m : Option Name) (ref : Name), Endless tree (m.getD module, ref) →
    resolveDefined tree cur fuel module m ref = .loop := by
  intro fuel
  induction fuel with
  | zero => intros; rw [resolveDefined]
  | succ fuel ih =>
    intro module m ref ⟨f, h0, hs⟩
    have h1 := hs 0
    rw [h0] at h1
    have hend : Endless tree (f 1) := ⟨fun i => f (i + 1), rfl, fun i => hs (i + 1)⟩
    rcases next_cases h1 with ⟨m1, r1, ps1, hl, hq⟩ | ⟨c1, n1, k1, m1, r1, ps1, hl, hq⟩
    · rcases resolveDefined_step tree cur fuel module m ref with ⟨e, he, h⟩ | ⟨m', r', ps, hl', he⟩ |
        ⟨c, n, k, m', r', ps, hl', he⟩ | ⟨t', wm, hl', hn', he, hwn⟩
      · exact absurd hl (h _)
      · simp only at hl; rw [hl] at hl'; cases hl'; rw [he]; exact ih _ _ _ (hq ▸ hend)
      · simp only at hl; rw [hl] at hl'; cases hl'
      · simp only at hl; rw [hl] at hl'; cases hl'; exact absurd (.direct _ _ _) (hn' _ _)
    · rcases resolveDefined_step tree cur fuel module m ref with ⟨e, he, h⟩ | ⟨m', r', ps, hl', he⟩ |
        ⟨c, n, k, m', r', ps, hl', he⟩ | ⟨t', wm, hl', hn', he, hwn⟩
      · exact absurd hl (h _)
      · simp only at hl; rw [hl] at hl'; cases hl'
      · simp only at hl; rw [hl] at hl'; cases hl'; rw [he, ih cur m1 r1 ?_]; rfl
        rw [hloc.getD hl]; exact hq ▸ hend
      · simp only at hl; rw [hl] at hl'; cases hl'; exact absurd (.tagged _ _ _ _ _ _) (hn' _ _)

/-- If no number of references suffices, the chain of references is endless. -/
theorem endless_of_loop {tree : Tree} {cur : Name} (hloc : TaggedRefsLocal tree cur) {p : Name × Name}
    (h : ∀ module m, m.getD module = p.1 → ∀ fuel, resolveDefined tree cur fuel module m p.2 = .loop) :
    Endless tree p := by
  -- the invariant: every number of references is too small
  let L : Name × Name → Prop := fun p =>
    ∀ (module : Name) (m : Option Name), m.getD module = p.1 → ∀ fuel, resolveDefined tree cur fuel module m p.2 = .loop
  have key : ∀ p, L p → ∃ q, Next tree p q ∧ L q := by
    intro p hp
    have hstep := fun fuel => resolveDefined_step tree cur fuel p.1 none p.2
    have indep : ∀ fuel module m module' m' (ref : Name), Option.getD m module = Option.getD m' module' →
        resolveDefined tree cur fuel module m ref = resolveDefined tree cur fuel module' m' ref := by
      intro fuel module m module' m' ref h
      cases fuel with
      | zero => rw [resolveDefined, resolveDefined]
      | succ fuel => rw [resolveDefined, resolveDefined, h]
    rcases hstep 0 with ⟨e, he, _⟩ | ⟨m', r', ps, hl, he⟩ | ⟨c, n, k, m', r', ps, hl, he⟩ | ⟨t, wm, _, _, he, _⟩
    · rw [hp p.1 none rfl 1] at he; cases he
    · refine ⟨(m'.getD p.1, r'), ⟨_, hl, .direct _ _ _⟩, fun module m hm fuel => ?_⟩
      rcases hstep fuel with ⟨e, he, _⟩ | ⟨m2, r2, ps2, hl2, he⟩ | ⟨c2, n2, k2, m2, r2, ps2, hl2, he⟩ | ⟨t, wm, _, _, he, _⟩
      · rw [hp p.1 none rfl _] at he; cases he
      · rw [hl] at hl2; cases hl2
        rw [hp p.1 none rfl _] at he
        rw [indep fuel module m p.1 m' r' hm]; exact he.symm
      · rw [hl] at hl2; cases hl2
      · rw [hp p.1 none rfl _] at he; cases he
    · refine ⟨(m'.getD p.1, r'), ⟨_, hl, .tagged _ _ _ _ _ _⟩, fun module m hm fuel => ?_⟩
      rcases hstep fuel with ⟨e, he, _⟩ | ⟨m2, r2, ps2, hl2, he⟩ | ⟨c2, n2, k2, m2, r2, ps2, hl2, he⟩ | ⟨t, wm, _, _, he, _⟩
      · rw [hp p.1 none rfl _] at he; cases he
      · rw [hl] at hl2; cases hl2
      · rw [hl] at hl2; cases hl2
        rw [hp p.1 none rfl _] at he
        rcases Res.bind_eq_loop.1 he.symm with h | ⟨a, _, ha⟩
        · rw [indep fuel module m cur m' r' (by rw [hm]; exact (hloc.getD hl).symm)]; exact h
        · cases ha
      · rw [hp p.1 none rfl _] at he; cases he
    · rw [hp p.1 none rfl 1] at he; cases he
  let next : { p // L p } → { p // L p } := fun p => ⟨(key p.1 p.2).choose, (key p.1 p.2).choose_spec.2⟩
  let f : Nat → { p // L p } := fun i => Nat.rec ⟨p, h⟩ (fun _ q => next q) i
  exact ⟨fun i => (f i).1, rfl, fun i => (key (f i).1 (f i).2).choose_spec.1⟩

end FastBer.Ast
