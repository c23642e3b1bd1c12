import Verif.Model.Modules
/-! # Proofs about the module level passes -/
namespace FastBer.Ast

theorem checkDuplicatedFrom_ok (as : List Assignment) : ∀ d : List Name,
    checkDuplicatedFrom d as = .ok () ↔
      (as.map (·.name)).Nodup ∧ ∀ a ∈ as, a.name ∉ d := by
  induction as with
  | nil => intro d; simp [checkDuplicatedFrom]
  | cons a as ih =>
    intro d
    simp only [checkDuplicatedFrom]
    by_cases h : a.name ∈ d
    · simp [h]
    · simp only [List.contains_eq_mem, h, decide_false, Bool.false_eq_true, if_false, ih,
        List.map_cons, List.nodup_cons, List.mem_cons, List.mem_map, not_or, forall_eq_or_imp]
      constructor
      · rintro ⟨h1, h2⟩
        exact ⟨⟨fun ⟨b, hb, e⟩ => (h2 b hb).1 e, h1⟩, id, fun b hb => (h2 b hb).2⟩
      · rintro ⟨⟨h1, h2⟩, _, h3⟩
        exact ⟨h2, fun b hb => ⟨fun e => h1 ⟨b, hb, e⟩, h3 b hb⟩⟩

theorem checkDuplicatedFrom_cases (as : List Assignment) : ∀ d : List Name,
    checkDuplicatedFrom d as = .ok () ∨ checkDuplicatedFrom d as = .throw .duplicateName := by
  induction as with
  | nil => intro d; simp [checkDuplicatedFrom]
  | cons a as ih =>
    intro d
    simp only [checkDuplicatedFrom]
    split
    · right; rfl
    · exact ih _

/-! ## Counting unvisited names -/

/-- How many of `names` are not in `visited`. -/
def unvisited (names visited : List Name) : Nat := names.countP fun n => !visited.contains n

theorem unvisited_mono {names v v' : List Name} (h : ∀ n ∈ v, n ∈ v') :
    unvisited names v' ≤ unvisited names v := by
  apply List.countP_mono_left
  intro n _ hn
  simp only [List.contains_eq_mem, Bool.not_eq_eq_eq_not, Bool.not_true, decide_eq_false_iff_not] at *
  exact fun h' => hn (h n h')

theorem unvisited_lt {names v : List Name} {n : Name} (h : n ∈ names) (hv : n ∉ v) :
    unvisited names (n :: v) < unvisited names v := by
  induction names with
  | nil => cases h
  | cons a as ih =>
    have hm : unvisited as (n :: v) ≤ unvisited as v :=
      unvisited_mono fun m hm => List.mem_cons_of_mem _ hm
    simp only [unvisited, List.countP_cons, List.contains_eq_mem, List.mem_cons] at *
    by_cases e : a = n
    · subst e
      simp only [true_or, decide_true, Bool.not_true, Bool.false_eq_true, if_false, hv, decide_false,
        Bool.not_false, if_true]
      omega
    · have : n ∈ as := by simpa [Ne.symm e] using h
      have := ih this
      simp only [e, false_or]; omega

theorem unvisited_le (names v : List Name) : unvisited names v ≤ names.length := List.countP_le_length

/-! ## `findLast` -/

theorem findLast_some {ms : List Module} {n : Name} {m : Module} (h : findLast ms n = some m) :
    m ∈ ms ∧ m.name = n := by
  unfold findLast at h
  have h1 := List.mem_of_find?_eq_some h
  have h2 := List.find?_some h
  simp at h1 h2
  exact ⟨h1, h2⟩

theorem findLast_isSome {ms : List Module} {n : Name} (h : n ∈ ms.map (·.name)) :
    ∃ m, findLast ms n = some m := by
  unfold findLast
  rcases e : List.find? (fun x => x.name == n) ms.reverse with _ | m
  · rw [List.find?_eq_none] at e
    obtain ⟨m, hm, rfl⟩ := List.mem_map.mp h
    exact absurd (e m (by simpa using hm)) (by simp)
  · exact ⟨m, e⟩

/-- `m` imports (something from) module `n`. -/
def Imports (m : Module) (n : Name) : Prop := ∃ i ∈ m.imports, i.module = n

/-- Within `ms`, the module named `a` imports the module named `b`. -/
def ImportEdge (ms : List Module) (a b : Name) : Prop := ∃ m, findLast ms a = some m ∧ Imports m b

/-- Every module of `add` comes after what it imports, given that `pre` has already been emitted. -/
def ImportsFirst (pre add : List Module) : Prop :=
  ∀ p m q, add = p ++ m :: q → ∀ n, Imports m n → n ∈ (pre ++ p).map (·.name)

theorem ImportsFirst.nil (pre : List Module) : ImportsFirst pre [] := by
  intro p m q h; simp at h

theorem ImportsFirst.append {pre a b : List Module} (ha : ImportsFirst pre a)
    (hb : ImportsFirst (pre ++ a) b) : ImportsFirst pre (a ++ b) := by
  intro p m q h n hn
  rcases List.append_eq_append_iff.mp h with ⟨c, hp, hb'⟩ | ⟨c, ha', hb'⟩
  · subst hp
    have := hb c m q hb' n hn
    simpa [List.append_assoc] using this
  · cases c with
    | nil =>
      simp only [List.append_nil] at ha'; subst ha'
      simp only [List.nil_append] at hb'
      simpa using hb [] m q hb'.symm n hn
    | cons x c =>
      simp only [List.cons_append, List.cons.injEq] at hb'
      obtain ⟨rfl, rfl⟩ := hb'
      exact ha p _ c ha' n hn

theorem ImportsFirst.single {pre : List Module} {m : Module}
    (h : ∀ n, Imports m n → n ∈ pre.map (·.name)) : ImportsFirst pre [m] := by
  intro p x q e n hn
  cases p with
  | nil => simp at e; obtain ⟨rfl, rfl⟩ := e; simpa using h n hn
  | cons y p => simp at e

/-- What a successful step from `s` to `s'` guarantees. -/
structure Step (ms : List Module) (s s' : ModState) : Prop where
  add : ∃ add newv, s'.ordered = s.ordered ++ add ∧ s'.visited = newv ++ s.visited ∧
    newv.length ≤ add.length ∧ (∀ m ∈ add, m ∈ ms ∧ findLast ms m.name = some m) ∧
    ((∀ n ∈ s.assigned, n ∈ s.ordered.map (·.name)) → add.length = newv.length →
      ImportsFirst s.ordered add)
  nodup : s.visited.Nodup → s'.visited.Nodup
  vis : (∀ n ∈ s.visited, n ∈ ms.map (·.name)) → ∀ n ∈ s'.visited, n ∈ ms.map (·.name)
  asg : ∀ n ∈ s.assigned, n ∈ s'.assigned
  out : (∀ n ∈ s.assigned, n ∈ s.ordered.map (·.name)) →
    ∀ n ∈ s'.assigned, n ∈ s'.ordered.map (·.name)
  av : (∀ n ∈ s.assigned, n ∈ s.visited) → ∀ n ∈ s'.assigned, n ∈ s'.visited

theorem Step.refl (ms : List Module) (s : ModState) : Step ms s s where
  add := ⟨[], [], by simp, by simp, by simp, by simp, fun _ _ => .nil _⟩
  nodup h := h
  vis h := h
  asg _ h := h
  out h := h
  av h := h

theorem Step.trans {ms : List Module} {a b c : ModState} (h : Step ms a b) (h' : Step ms b c) :
    Step ms a c where
  add := by
    obtain ⟨x, v, h1, h2, h3, h4, h5⟩ := h.add
    obtain ⟨y, w, k1, k2, k3, k4, k5⟩ := h'.add
    refine ⟨x ++ y, w ++ v, by simp [k1, h1], by simp [k2, h2], by simp; omega, ?_, ?_⟩
    · intro m hm
      rcases List.mem_append.mp hm with hm | hm
      · exact h4 m hm
      · exact k4 m hm
    · intro ho e
      simp only [List.length_append] at e
      have := k5 (h.out ho) (by omega)
      rw [h1] at this
      exact (h5 ho (by omega)).append this
  nodup hh := h'.nodup (h.nodup hh)
  vis hh := h'.vis (h.vis hh)
  asg n hn := h'.asg n (h.asg n hn)
  out hh := h'.out (h.out hh)
  av hh := h'.av (h.av hh)

theorem foldlM_step {α : Type} (ms : List Module) (f : ModState → α → Res ModState)
    (key : α → Name)
    (hf : ∀ s a s', f s a = .ok s' → Step ms s s' ∧ key a ∈ s'.assigned) (l : List α) :
    ∀ s s', l.foldlM f s = .ok s' → Step ms s s' ∧ ∀ a ∈ l, key a ∈ s'.assigned := by
  induction l with
  | nil => intro s s' h; simp at h; subst h; exact ⟨.refl _ _, by simp⟩
  | cons a l ih =>
    intro s s' h
    simp only [List.foldlM_cons] at h
    obtain ⟨t, h1, h2⟩ := Res.bind_eq_ok.mp h
    obtain ⟨p1, p2⟩ := hf _ _ _ h1
    obtain ⟨q1, q2⟩ := ih _ _ h2
    refine ⟨p1.trans q1, ?_⟩
    intro b hb
    rcases List.mem_cons.mp hb with rfl | hb
    · exact q1.asg _ p2
    · exact q2 b hb

theorem resolveModule_step (ms : List Module) : ∀ fuel n s s',
    resolveModule ms fuel n s = .ok s' → Step ms s s' ∧ n ∈ s'.assigned := by
  intro fuel
  induction fuel with
  | zero => intro n s s' h; simp [resolveModule] at h
  | succ fuel ih =>
    intro n s s' h
    rw [resolveModule] at h
    rcases hf : findLast ms n with _ | m
    · rw [hf] at h; simp at h
    · rw [hf] at h
      obtain ⟨hm, hn⟩ := findLast_some hf
      simp only [List.contains_eq_mem, decide_eq_true_eq] at h
      split at h
      · rename_i ha
        simp only [Res.ok.injEq] at h; subst h
        exact ⟨.refl _ _, ha⟩
      · split at h
        · rename_i ha hv
          simp only [Res.ok.injEq] at h; subst h
          refine ⟨⟨⟨[m], [], rfl, rfl, by simp, ?_, by simp⟩, id, id, ?_, ?_, ?_⟩, by simp⟩
          · intro x hx; simp at hx; subst hx; exact ⟨hm, by rw [hn]; exact hf⟩
          · intro x hx; exact List.mem_cons_of_mem _ hx
          · intro ho x hx
            simp only [List.mem_cons] at hx
            simp only [List.map_append, List.mem_append, List.map_cons, List.map_nil,
              List.mem_cons, List.not_mem_nil, or_false]
            rcases hx with rfl | hx
            · right; exact hn.symm
            · left; exact ho x hx
          · intro ho x hx
            simp only [List.mem_cons] at hx
            rcases hx with rfl | hx
            · exact hv
            · exact ho x hx
        · rename_i ha hv
          obtain ⟨t, h1, h2⟩ := Res.bind_eq_ok.mp h
          simp only [Res.ok.injEq] at h2; subst h2
          obtain ⟨p, q⟩ := foldlM_step ms _ (fun i : Import => i.module)
            (fun s i s' h => ih i.module s s' h) _ _ _ h1
          obtain ⟨x, v, a1, a2, a3, a4, a5⟩ := p.add
          refine ⟨⟨⟨x ++ [m], v ++ [n], ?_, ?_, ?_, ?_, ?_⟩, ?_, ?_, ?_, ?_, ?_⟩, by simp⟩
          · simp only [a1, List.append_assoc]
          · simp only [a2, List.append_assoc, List.singleton_append]
          · simp; omega
          · intro y hy
            rcases List.mem_append.mp hy with hy | hy
            · exact a4 y hy
            · simp at hy; subst hy; exact ⟨hm, by rw [hn]; exact hf⟩
          · intro ho e
            simp only [List.length_append, List.length_singleton, Nat.add_right_cancel_iff] at e
            refine (a5 ho e).append (.single ?_)
            rintro k ⟨i, hi, rfl⟩
            have := p.out ho _ (q i hi)
            rw [a1] at this
            exact this
          · intro hh
            exact p.nodup (List.nodup_cons.mpr ⟨hv, hh⟩)
          · intro hh
            refine p.vis ?_
            intro k hk
            simp only [List.mem_cons] at hk
            rcases hk with rfl | hk
            · exact List.mem_map.mpr ⟨m, hm, hn⟩
            · exact hh k hk
          · intro k hk
            exact List.mem_cons_of_mem _ (p.asg k hk)
          · intro ho k hk
            simp only [List.mem_cons] at hk
            simp only [List.map_append, List.mem_append, List.map_cons, List.map_nil,
              List.mem_cons, List.not_mem_nil, or_false]
            rcases hk with rfl | hk
            · right; exact hn.symm
            · left; exact p.out ho k hk
          · intro hh k hk
            simp only [List.mem_cons] at hk
            rcases hk with rfl | hk
            · rw [a2]; simp
            · exact p.av (fun z hz => List.mem_cons_of_mem _ (hh z hz)) k hk

/-! ## Termination -/

theorem foldlM_no_loop {α σ : Type} (f : σ → α → Res σ) (P : σ → Prop) (l : List α)
    (hf : ∀ s, ∀ a ∈ l, P s → f s a ≠ .loop) (hp : ∀ s a s', P s → f s a = .ok s' → P s') :
    ∀ s, P s → l.foldlM f s ≠ .loop := by
  induction l with
  | nil => intro s _; simp
  | cons a l ih =>
    intro s hs h
    rw [List.foldlM_cons, Res.bind_eq_loop] at h
    rcases h with h | ⟨t, h1, h2⟩
    · exact hf s a (by simp) hs h
    · exact ih (fun s b hb => hf s b (List.mem_cons_of_mem _ hb)) t (hp _ _ _ hs h1) h2

theorem Step.visited_mono {ms : List Module} {s s' : ModState} (h : Step ms s s') :
    ∀ n ∈ s.visited, n ∈ s'.visited := by
  obtain ⟨_, v, _, e, _⟩ := h.add
  intro n hn
  rw [e]; exact List.mem_append_right _ hn

theorem resolveModule_no_loop (ms : List Module) : ∀ fuel n s,
    unvisited (ms.map (·.name)) s.visited < fuel → resolveModule ms fuel n s ≠ .loop := by
  intro fuel
  induction fuel with
  | zero => intro n s h; omega
  | succ fuel ih =>
    intro n s h
    rw [resolveModule]
    rcases hf : findLast ms n with _ | m
    · simp
    · obtain ⟨hm, hn⟩ := findLast_some hf
      simp only [List.contains_eq_mem, decide_eq_true_eq]
      split
      · simp
      · split
        · simp
        · rename_i ha hv
          intro hl
          rcases Res.bind_eq_loop.mp hl with hl | ⟨t, _, hl⟩
          · refine foldlM_no_loop _ (fun s => unvisited (ms.map (·.name)) s.visited < fuel) _
              (fun s i _ hs => ih i.module s hs) ?_ _ ?_ hl
            · intro s i s' hs h'
              exact Nat.lt_of_le_of_lt (unvisited_mono (resolveModule_step _ _ _ _ _ h').1.visited_mono) hs
            · have : unvisited (ms.map (·.name)) (n :: s.visited) <
                  unvisited (ms.map (·.name)) s.visited :=
                unvisited_lt (List.mem_map.mpr ⟨m, hm, hn⟩) hv
              show unvisited (ms.map (·.name)) (n :: s.visited) < fuel
              omega
          · simp at hl

theorem reorderModules_no_loop (ms : List Module) : reorderModules ms ≠ .loop := by
  intro h
  unfold reorderModules at h
  rcases Res.bind_eq_loop.mp h with h | ⟨t, _, h⟩
  · refine foldlM_no_loop _ (fun _ => True) _ ?_ (by simp) _ trivial h
    intro s m _ _
    apply resolveModule_no_loop
    have := unvisited_le (ms.map (·.name)) s.visited
    simp at this
    omega
  · split at h <;> simp at h

/-! ## Undefined behaviour -/

theorem foldlM_no_ub {α σ : Type} (f : σ → α → Res σ) (l : List α)
    (hf : ∀ s, ∀ a ∈ l, f s a ≠ .ub) : ∀ s, l.foldlM f s ≠ .ub := by
  induction l with
  | nil => intro s; simp
  | cons a l ih =>
    intro s h
    rw [List.foldlM_cons, Res.bind_eq_ub] at h
    rcases h with h | ⟨t, h1, h2⟩
    · exact hf s a (by simp) h
    · exact ih (fun s b hb => hf s b (List.mem_cons_of_mem _ hb)) t h2

theorem resolveModule_no_ub (ms : List Module)
    (hd : ∀ m ∈ ms, ∀ n, Imports m n → n ∈ ms.map (·.name)) : ∀ fuel n s,
    n ∈ ms.map (·.name) → resolveModule ms fuel n s ≠ .ub := by
  intro fuel
  induction fuel with
  | zero => intro n s _; simp [resolveModule]
  | succ fuel ih =>
    intro n s h
    rw [resolveModule]
    obtain ⟨m, hf⟩ := findLast_isSome h
    rw [hf]
    obtain ⟨hm, hn⟩ := findLast_some hf
    simp only
    split
    · simp
    · split
      · simp
      · intro hl
        rcases Res.bind_eq_ub.mp hl with hl | ⟨t, _, hl⟩
        · exact foldlM_no_ub _ _ (fun s i hi => ih i.module s (hd m hm _ ⟨i, hi, rfl⟩)) _ hl
        · simp at hl

theorem reorderModules_no_ub (ms : List Module)
    (hd : ∀ m ∈ ms, ∀ n, Imports m n → n ∈ ms.map (·.name)) : reorderModules ms ≠ .ub := by
  intro h
  unfold reorderModules at h
  rcases Res.bind_eq_ub.mp h with h | ⟨t, _, h⟩
  · exact foldlM_no_ub _ _
      (fun s m hm => resolveModule_no_ub ms hd _ _ s (List.mem_map.mpr ⟨m, hm, rfl⟩)) _ h
  · split at h <;> simp at h

/-! ## Success -/

theorem perm_of_nodup_subset_length {α : Type} [DecidableEq α] : ∀ (a b : List α), a.Nodup →
    (∀ x ∈ a, x ∈ b) → b.length ≤ a.length → a.Perm b
  | [], b, _, _, h => by
    cases b with
    | nil => exact .refl _
    | cons x b => simp at h
  | x :: a, b, hn, hs, hl => by
    have hx : x ∈ b := hs x (by simp)
    have h1 : b.Perm (x :: b.erase x) := List.perm_cons_erase hx
    obtain ⟨hx', hn'⟩ := List.nodup_cons.mp hn
    refine (List.Perm.cons x (perm_of_nodup_subset_length a (b.erase x) hn' ?_ ?_)).trans h1.symm
    · intro y hy
      have : y ≠ x := fun e => hx' (e ▸ hy)
      exact (List.mem_erase_of_ne this).mpr (hs y (List.mem_cons_of_mem _ hy))
    · rw [List.length_erase_of_mem hx]
      simp at hl; omega

theorem length_le_of_nodup_subset {α : Type} [DecidableEq α] : ∀ (a b : List α), a.Nodup →
    (∀ x ∈ a, x ∈ b) → a.length ≤ b.length
  | [], b, _, _ => by simp
  | x :: a, b, hn, hs => by
    have hx : x ∈ b := hs x (by simp)
    obtain ⟨hx', hn'⟩ := List.nodup_cons.mp hn
    have := length_le_of_nodup_subset a (b.erase x) hn' (by
      intro y hy
      have : y ≠ x := fun e => hx' (e ▸ hy)
      exact (List.mem_erase_of_ne this).mpr (hs y (List.mem_cons_of_mem _ hy)))
    rw [List.length_erase_of_mem hx] at this
    have : 0 < b.length := List.length_pos_of_mem hx
    simp; omega

theorem nodup_of_map {α β : Type} {f : α → β} {l : List α} (h : (l.map f).Nodup) : l.Nodup := by
  unfold List.Nodup at *
  rw [List.pairwise_map] at h
  exact h.imp fun hne e => hne (by rw [e])

theorem reorderModules_ok {ms out : List Module} (hn : (ms.map (·.name)).Nodup)
    (h : reorderModules ms = .ok out) : out.Perm ms ∧ ImportsFirst [] out := by
  unfold reorderModules at h
  obtain ⟨s, h1, h2⟩ := Res.bind_eq_ok.mp h
  split at h2
  · simp at h2
  · rename_i hl
    simp only [bne_iff_ne, ne_eq, Decidable.not_not] at hl
    simp only [Res.ok.injEq] at h2; subst h2
    obtain ⟨p, q⟩ := foldlM_step ms _ (fun m : Module => m.name)
      (fun s m s' h => resolveModule_step ms _ m.name s s' h) _ _ _ h1
    obtain ⟨x, v, a1, a2, a3, a4, a5⟩ := p.add
    simp only [List.nil_append, List.append_nil] at a1 a2
    have hcov : ∀ n ∈ ms.map (·.name), n ∈ s.ordered.map (·.name) := by
      intro n hn
      obtain ⟨m, hm, rfl⟩ := List.mem_map.mp hn
      exact p.out (by simp) _ (q m hm)
    have hperm : (ms.map (·.name)).Perm (s.ordered.map (·.name)) :=
      perm_of_nodup_subset_length _ _ hn hcov (by simp [hl])
    have hvis : ∀ n ∈ ms.map (·.name), n ∈ s.visited := by
      intro n hn
      obtain ⟨m, hm, rfl⟩ := List.mem_map.mp hn
      exact p.av (by simp) _ (q m hm)
    have hvl : (ms.map (·.name)).length ≤ s.visited.length :=
      length_le_of_nodup_subset _ _ hn hvis
    constructor
    · -- the emitted modules are pairwise distinct members of `ms`
      have hnd : s.ordered.Nodup := by
        have : (s.ordered.map (·.name)).Nodup := hperm.nodup_iff.mp hn
        exact nodup_of_map this
      haveI : DecidableEq Module := fun a b => Classical.propDecidable (a = b)
      refine perm_of_nodup_subset_length _ _ hnd ?_ (by omega)
      intro m hm
      rw [a1] at hm
      exact (a4 m hm).1
    · rw [a1]
      refine a5 (by simp) ?_
      rw [a2] at hvl
      rw [a1] at hl
      simp at hvl
      omega

/-! ## Acyclic imports -/

/-- What a step guarantees when the import graph has no cycle. -/
structure Clean (s s' : ModState) : Prop where
  len : s'.ordered.length + s.visited.length = s.ordered.length + s'.visited.length
  opn : ∀ m ∈ s'.visited, m ∉ s'.assigned → m ∈ s.visited ∧ m ∉ s.assigned

theorem foldlM_clean {α : Type} (f : ModState → α → Res ModState) (P : Name → α → Prop) (l : List α)
    (hf : ∀ s, ∀ a ∈ l, ∀ s', f s a = .ok s' →
      (∀ m ∈ s.visited, m ∉ s.assigned → P m a) → Clean s s') :
    ∀ s s', l.foldlM f s = .ok s' → (∀ m ∈ s.visited, m ∉ s.assigned → ∀ a ∈ l, P m a) →
      Clean s s' := by
  induction l with
  | nil => intro s s' h _; simp at h; subst h; exact ⟨rfl, fun m h h' => ⟨h, h'⟩⟩
  | cons a l ih =>
    intro s s' h hP
    simp only [List.foldlM_cons] at h
    obtain ⟨t, h1, h2⟩ := Res.bind_eq_ok.mp h
    have p := hf s a (by simp) t h1 (fun m hm hm' => hP m hm hm' a (by simp))
    have q := ih (fun s b hb => hf s b (List.mem_cons_of_mem _ hb)) t s' h2 (fun m hm hm' b hb => by
      have := p.opn m hm hm'
      exact hP m this.1 this.2 b (List.mem_cons_of_mem _ hb))
    refine ⟨?_, fun m hm hm' => ?_⟩
    · have := p.len; have := q.len; omega
    · have := q.opn m hm hm'
      exact p.opn m this.1 this.2

theorem resolveModule_clean (ms : List Module)
    (hac : ∀ n, ¬ Relation.TransGen (ImportEdge ms) n n) : ∀ fuel n s s',
    resolveModule ms fuel n s = .ok s' →
      (∀ m ∈ s.visited, m ∉ s.assigned → Relation.TransGen (ImportEdge ms) m n) → Clean s s' := by
  intro fuel
  induction fuel with
  | zero => intro n s s' h; simp [resolveModule] at h
  | succ fuel ih =>
    intro n s s' h hP
    rw [resolveModule] at h
    rcases hf : findLast ms n with _ | m
    · rw [hf] at h; simp at h
    · rw [hf] at h
      simp only [List.contains_eq_mem, decide_eq_true_eq] at h
      split at h
      · simp only [Res.ok.injEq] at h; subst h
        exact ⟨rfl, fun m h h' => ⟨h, h'⟩⟩
      · split at h
        · rename_i ha hv
          exact absurd (hP n hv ha) (hac n)
        · rename_i ha hv
          obtain ⟨t, h1, h2⟩ := Res.bind_eq_ok.mp h
          simp only [Res.ok.injEq] at h2; subst h2
          have p := foldlM_clean _ (fun k (i : Import) => Relation.TransGen (ImportEdge ms) k i.module)
            m.imports (fun s i _ s' h hp => ih i.module s s' h hp) _ _ h1 (by
              intro k hk hk' i hi
              have he : ImportEdge ms n i.module := ⟨m, hf, i, hi, rfl⟩
              simp only [List.mem_cons] at hk
              rcases hk with rfl | hk
              · exact .single he
              · exact .tail (hP k hk hk') he)
          refine ⟨?_, fun k hk hk' => ?_⟩
          · have := p.len
            simp at this ⊢; omega
          · simp only [List.mem_cons, not_or] at hk'
            have := p.opn k hk hk'.2
            simp only [List.mem_cons] at this
            rcases this with ⟨rfl | h, h'⟩
            · exact absurd rfl hk'.1
            · exact ⟨h, h'⟩

theorem foldlM_no_throw {α σ : Type} (f : σ → α → Res σ) (l : List α) (e : Err)
    (hf : ∀ s, ∀ a ∈ l, f s a ≠ .throw e) : ∀ s, l.foldlM f s ≠ .throw e := by
  induction l with
  | nil => intro s; simp
  | cons a l ih =>
    intro s h
    rw [List.foldlM_cons, Res.bind_eq_throw] at h
    rcases h with h | ⟨t, h1, h2⟩
    · exact hf s a (by simp) h
    · exact ih (fun s b hb => hf s b (List.mem_cons_of_mem _ hb)) t h2

theorem resolveModule_no_throw (ms : List Module) (e : Err) : ∀ fuel n s,
    resolveModule ms fuel n s ≠ .throw e := by
  intro fuel
  induction fuel with
  | zero => intro n s; simp [resolveModule]
  | succ fuel ih =>
    intro n s
    rw [resolveModule]
    split
    · simp
    · split
      · simp
      · split
        · simp
        · intro hl
          rcases Res.bind_eq_throw.mp hl with hl | ⟨t, _, hl⟩
          · exact foldlM_no_throw _ _ e (fun s i _ => ih i.module s) _ hl
          · simp at hl

theorem reorderModules_acyclic {ms : List Module} (hn : (ms.map (·.name)).Nodup)
    (hd : ∀ m ∈ ms, ∀ n, Imports m n → n ∈ ms.map (·.name))
    (hac : ∀ n, ¬ Relation.TransGen (ImportEdge ms) n n) : ∃ out, reorderModules ms = .ok out := by
  have hub := reorderModules_no_ub ms hd
  have hlp := reorderModules_no_loop ms
  unfold reorderModules at *
  rcases h : List.foldlM (fun s m => resolveModule ms (ms.length + 2) m.name s) ⟨[], [], []⟩ ms with s | e | _ | _
  · obtain ⟨p, q⟩ := foldlM_step ms _ (fun m : Module => m.name)
      (fun s m s' h => resolveModule_step ms _ m.name s s' h) _ _ _ h
    have c := foldlM_clean _ (fun k (m : Module) => Relation.TransGen (ImportEdge ms) k m.name) ms
      (fun s m _ s' h hp => resolveModule_clean ms hac _ m.name s s' h hp) _ _ h (by simp)
    have hvis : ∀ n ∈ ms.map (·.name), n ∈ s.visited := by
      intro n hn
      obtain ⟨m, hm, rfl⟩ := List.mem_map.mp hn
      exact p.av (by simp) _ (q m hm)
    have l1 := length_le_of_nodup_subset _ _ hn hvis
    have l2 := length_le_of_nodup_subset _ _ (p.nodup (by simp)) (p.vis (by simp))
    have l3 := c.len
    simp at l1 l2 l3
    refine ⟨s.ordered, ?_⟩
    have : ms.length = s.ordered.length := by omega
    rw [h, Res.ok_bind]
    simp [this]
  · exact absurd h (foldlM_no_throw _ _ e (fun s m _ => resolveModule_no_throw ms e _ m.name s) _)
  · rw [h] at hub; exact absurd rfl hub
  · rw [h] at hlp; exact absurd rfl hlp

/-- Position argument: if everything comes after what it imports, nothing imports itself. -/
theorem acyclic_of_importsFirst {ms out : List Module} (hn : (ms.map (·.name)).Nodup)
    (hp : out.Perm ms) (hf : ImportsFirst [] out) : ∀ n, ¬ Relation.TransGen (ImportEdge ms) n n := by
  have hno : (out.map (·.name)).Nodup := (hp.map _).nodup_iff.mpr hn
  -- an edge goes to a strictly smaller position
  have key : ∀ a b, ImportEdge ms a b →
      (out.map (·.name)).idxOf b < (out.map (·.name)).idxOf a := by
    rintro a b ⟨m, hm, hi⟩
    obtain ⟨h1, h2⟩ := findLast_some hm
    obtain ⟨p, q, rfl⟩ := List.append_of_mem (hp.mem_iff.mpr h1)
    have := hf p m q rfl b hi
    simp only [List.nil_append] at this
    subst h2
    have hma : m.name ∉ p.map (·.name) := by
      simp only [List.map_append, List.map_cons] at hno
      intro hmem
      exact (List.nodup_append.mp hno).2.2 _ hmem _ (by simp) rfl
    simp only [List.map_append, List.map_cons]
    rw [List.idxOf_append, List.idxOf_append, if_pos this, if_neg hma]
    have := List.idxOf_lt_length_of_mem this
    omega
  have tr : ∀ a b, Relation.TransGen (ImportEdge ms) a b →
      (out.map (·.name)).idxOf b < (out.map (·.name)).idxOf a := by
    intro a b h
    induction h with
    | single h => exact key _ _ h
    | tail _ h ih => exact Nat.lt_trans (key _ _ h) ih
  intro n h
  exact absurd (tr n n h) (Nat.lt_irrefl _)

end FastBer.Ast
