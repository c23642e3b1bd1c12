import Verif.Proofs.ForwardRunType
/-!
# All modules of a supported, legal schema with circular references are compiled

As Proofs/RunModules, for `Fwd.generate`.
-/
namespace FastBer.Ast.Fwd
open Spec FastBer.Props

/-- What an assignment declares, for others to refer to. -/
def AvailA (mod : Module) (a : Assignment) (spaces : List ((Name × Name) × Ent)) : Prop :=
  ∀ t, a.body = .type t → (∃ T, spaces.lookup (mod.name, a.name) = some (.type T) ∧ T.isRef = false) ∧
    (isList t = true → ∃ T, spaces.lookup (mod.name, a.name ++ "Contained") = some (.type T)) ∧
    (t = .leaf .enumerated → spaces.lookup (mod.name, a.name ++ "Values") = some .enum)

theorem AvailA.mono {mod : Module} {a : Assignment} {sp sp' : List ((Name × Name) × Ent)} (h : AvailA mod a sp)
    (hm : ∀ m n e, sp.lookup (m, n) = some e → sp'.lookup (m, n) = some e) : AvailA mod a sp' := by
  intro t ht
  obtain ⟨⟨T, h1, hr⟩, h2, h3⟩ := h t ht
  refine ⟨⟨T, hm _ _ _ h1, hr⟩, fun hl => ?_, fun he => hm _ _ _ (h3 he)⟩
  obtain ⟨E, hE⟩ := h2 hl
  exact ⟨E, hm _ _ _ hE⟩

/-- What is written before is there. -/
theorem earlier_there {tree : Tree} (hS : Supported tree) {before after : List Module} {mod : Module}
    (hms : tree.modules = before ++ mod :: after) {done rest : List Assignment} {a : Assignment} (has : mod.assignments = done ++ a :: rest)
    {spaces : List ((Name × Name) × Ent)} (h1 : ∀ w ∈ before, ∀ b ∈ w.assignments, AvailA w b spaces) (h2 : ∀ b ∈ done, AvailA mod b spaces)
    {m : Option Name} {ref : Name} {wm : Module} {u : AType} (ht : target tree mod m ref = some (wm, u))
    (hord : if m.getD mod.name = mod.name then ∃ b ∈ done, b.name = ref else ∃ w ∈ before, w.name = m.getD mod.name) :
    (∃ T, spaces.lookup (wm.name, ref) = some (.type T) ∧ T.isRef = false) ∧
    (isList u = true → ∃ T, spaces.lookup (wm.name, ref ++ "Contained") = some (.type T)) ∧
    (u = .leaf .enumerated → spaces.lookup (wm.name, ref ++ "Values") = some .enum) := by
  have hm : mod ∈ tree.modules := by rw [hms]; simp
  obtain ⟨hw, hwn, b, hbm, hbn, hbb⟩ := target_mem ht
  split at hord
  · rename_i hloc
    obtain ⟨b', hb', hn'⟩ := hord
    have : wm = mod := pairwise_unique hS.modules hw hm (by rw [hwn, hloc])
    subst this
    have hb'm : b' ∈ wm.assignments := by rw [has]; exact List.mem_append_left _ hb'
    have : b' = b := pairwise_unique (hS.assignments _ hw) hb'm hbm (by rw [hn', hbn])
    subst this
    rw [← hbn]
    exact h2 b' hb' u hbb
  · obtain ⟨w, hwb, hwn'⟩ := hord
    have : w = wm := pairwise_unique hS.modules (by rw [hms]; exact List.mem_append_left _ hwb) hw (by rw [hwn, hwn'])
    subst this
    rw [← hbn]
    exact h1 w hwb b hbm u hbb

theorem avail_of_order {tree : Tree} (hS : Supported tree) (hC : RCompilable tree) {before after : List Module} {mod : Module}
    (hms : tree.modules = before ++ mod :: after) {done rest : List Assignment} {a : Assignment} (has : mod.assignments = done ++ a :: rest) {t : AType}
    (hb : a.body = .type t) {spaces : List ((Name × Name) × Ent)} (h1 : ∀ w ∈ before, ∀ b ∈ w.assignments, AvailA w b spaces)
    (h2 : ∀ b ∈ done, AvailA mod b spaces) : Avail tree mod spaces t := by
  intro m ref hmen wm u ht
  have key : isList u = true ∨ u = .leaf .enumerated → _ := fun hu =>
    earlier_there hS hms has h1 h2 ht (hC.order before mod after hms done a rest has t hb m ref hmen (.inl ⟨wm, u, ht, hu⟩))
  exact ⟨fun hl => (key (.inl hl)).2.1 hl, fun he => (key (.inr he)).2.2 he⟩

theorem untag_occurs {tree : Tree} {mod : Module} : ∀ {t : AType}, Occurs tree mod t → Occurs tree mod (untag t)
  | .prefixed _ _ _ t, h => by rw [untag]; exact untag_occurs (t := t) (.prefixed h)
  | .leaf _, h => h
  | .objField _ _ _, h => h
  | .defined _ _ _, h => h
  | .seqOf _ _ _, h => h
  | .setOf _ _ _, h => h
  | .set _ _, h => h
  | .sequence _ _, h => h
  | .choice _ _, h => h

theorem untag_mentioned {m : Option Name} {ref : Name} {ps : List AType} : ∀ {t : AType}, untag t = .defined m ref ps → Mentioned t m ref
  | .prefixed _ _ _ _, h => mentioned_child .prefixed (untag_mentioned h)
  | .defined _ _ _, h => ⟨ps, .inl h⟩
  | .leaf _, h => by cases h
  | .objField _ _ _, h => by cases h
  | .seqOf _ _ _, h => by cases h
  | .setOf _ _ _, h => by cases h
  | .set _ _, h => by cases h
  | .sequence _ _, h => by cases h
  | .choice _ _, h => by cases h

theorem lookup_map_other {here m n : Name} (h : m ≠ here) : ∀ (l : List (Name × Ent)) (sp : List ((Name × Name) × Ent)),
    (l.map (fun p => ((here, p.1), p.2)) ++ sp).lookup (m, n) = sp.lookup (m, n) := by
  intro l sp
  refine lookup_append_none fun p hp => ?_
  obtain ⟨q, _, rfl⟩ := List.mem_map.1 hp
  intro he
  exact h (Prod.mk.inj he).1.symm

/-- The name of a value is not that of a type. -/
theorem base_other {lib : Lib} {tree : Tree} (hS : Supported tree) {spaces : List ((Name × Name) × Ent)} (hI : Inv lib tree spaces) {mod : Module}
    (hm : mod ∈ tree.modules) {a : Assignment} (ha : a ∈ mod.assignments) (hno : ∀ t, a.body ≠ .type t) : checkBase (spaces.lookup (mod.name, a.name)) = .ok () := by
  unfold checkBase
  split
  · rename_i k hl
    obtain ⟨wm', a', t', j, u, hw', hn', ha', hab', hc, _, _⟩ := hI _ _ _ (lookup_mem hl)
    have h1 : wm' = mod := pairwise_unique hS.modules hw' hm hn'
    subst h1
    cases j with
    | zero =>
      have h2 : a' = a := pairwise_unique (hS.assignments _ hm) ha' ha hc.symm
      subst h2
      exact absurd hab' (hno _)
    | succ j => exact absurd hc ((hS.typeNames _ hm _ ha).2 (contained j a'.name))
  · rfl

theorem runBody_total {lib : Lib} {tree : Tree} (hS : Supported tree) (hC : RCompilable tree) (hL : Legal tree) (hD : DefaultsTaken lib tree) {fuel : Nat}
    {before after : List Module} {mod : Module} (hms : tree.modules = before ++ mod :: after)
    (hem : ∀ a ∈ mod.assignments, ∃ ds, createAssignment tree fuel mod a = .ok ds) :
    ∀ (as done : List Assignment) (env : Env), mod.assignments = done ++ as → env.scopes = [] → Inv lib tree env.spaces → EnumSpaces env.spaces →
    (∀ w ∈ before, ∀ b ∈ w.assignments, AvailA w b env.spaces) → (∀ b ∈ done, AvailA mod b env.spaces) →
    (∀ n, n ∉ done.flatMap (declaresA tree mod) → env.spaces.lookup (mod.name, n) = none) →
    ∃ env', runBody lib tree fuel mod env as = .ok env' ∧ EnumSpaces env'.spaces ∧ (∀ b ∈ mod.assignments, AvailA mod b env'.spaces) ∧
      ∀ m n, m ≠ mod.name → env'.spaces.lookup (m, n) = env.spaces.lookup (m, n)
  | [], done, env, has, hsc, hI, hE, h1, h2, h3 => ⟨env, rfl, hE, by rw [has, List.append_nil]; exact h2, fun _ _ _ => rfl⟩
  | a :: as, done, env, has, hsc, hI, hE, h1, h2, h3 => by
    have hm : mod ∈ tree.modules := by rw [hms]; simp
    have ha : a ∈ mod.assignments := by rw [has]; simp
    have hns := hC.namespaces _ hm
    rw [has, List.flatMap_append, List.flatMap_cons, List.nodup_append, List.nodup_append] at hns
    obtain ⟨ds, hds⟩ := hem a ha
    have key : ∃ mid, runAll lib tree mod.name env ds = .ok mid ∧ EnumSpaces mid.spaces ∧ checkBase (mid.spaces.lookup (mod.name, a.name)) = .ok () ∧ AvailA mod a mid.spaces ∧
        (∀ n, n ∉ (done ++ [a]).flatMap (declaresA tree mod) → mid.spaces.lookup (mod.name, n) = none) ∧
        (∀ m n, m ≠ mod.name → mid.spaces.lookup (m, n) = env.spaces.lookup (m, n)) := by
      cases hb : a.body with
      | type t =>
        have hda : declaresA tree mod a = declares tree mod t a.name := by unfold declaresA; rw [hb]
        rw [hda] at hns
        have hc : createType tree fuel mod t a.name (some a.name) none = .ok ds := by
          unfold createAssignment at hds; rw [hb] at hds; exact hds
        have hfr : ∀ n ∈ declares tree mod t a.name, env.cur mod.name n = none := by
          intro n hn
          unfold Env.cur
          rw [hsc]
          exact h3 n fun hd => hns.2.2 n hd n (List.mem_append_left _ hn) rfl
        obtain ⟨mid, new, h4, h5, h6, h7, h8, T0, hT0, hbase⟩ := createType_run hS hC.toCompilableNames hL hD fuel hm t a.name (some a.name) none env ds (.assigned hm ha hb) (.assigned hm ha hb) hI
          (by rw [hsc]; intro s hs; cases hs) (by rw [hsc]; intro s hs; cases hs) (fun _ h => by cases h) hE
          (avail_of_order hS hC hms has hb h1 h2) hns.2.1.1 hfr (fun _ => rfl) hc
        obtain ⟨new', T, hstep, hnames, _⟩ := createType_right hS fuel hm t a.name _ none env mid ds (.assigned hm ha hb) hI
          (by rw [hsc]; intro s hs; cases hs) (fun _ h => by cases h) hc h4
        obtain ⟨h9, h10⟩ := h5.spaces hsc
        have hcur : ∀ n, mid.cur mod.name n = mid.spaces.lookup (mod.name, n) := by intro n; unfold Env.cur; rw [h9]
        have hnr : T.isRef = false := by
          have : T0 = T := by
            have := hstep.seen _ hnames.type
            rw [hT0] at this
            cases this; rfl
          subst this
          cases hr : T0.isRef with
          | false => rfl
          | true =>
            obtain ⟨m, ref, ps, hu, hq⟩ := hbase hr
            have ho' : Occurs tree mod (.defined m ref ps) := by rw [← hu]; exact untag_occurs (.assigned hm ha hb)
            have htag := hS.tags _ _ ho'
            cases htag with
            | reference ht _ =>
              obtain ⟨⟨T', hT', hr'⟩, _⟩ := earlier_there hS hms has h1 h2 ht
                (hC.order before mod after hms done a as has t hb m ref (untag_mentioned hu) (.inr ⟨ps, hu⟩))
              rw [(target_mem ht).2.1] at hT'
              unfold qualified at hq
              rw [hT'] at hq
              cases hq
              rw [hr'] at hr
              cases hr
        refine ⟨mid, h4, ?_, ?_, ?_, ?_, ?_⟩
        · obtain ⟨_, h12⟩ := hstep.spaces hsc
          intro m n hmem
          rw [h12] at hmem
          rcases List.mem_append.1 hmem with hmem | hmem
          · obtain ⟨⟨q, e⟩, hq, he⟩ := List.mem_map.1 hmem
            cases he
            exact hnames.enums _ hq
          · exact hE _ _ hmem
        · rw [← hcur, hstep.seen _ hnames.type]
          cases T with
          | ref k => cases hnr
          | _ => rfl
        · intro t' ht'
          rw [hb] at ht'
          cases ht'
          refine ⟨⟨T, by rw [← hcur]; exact hstep.seen _ hnames.type, hnr⟩, fun hl => ?_, fun he => by rw [← hcur]; exact h8 he⟩
          obtain ⟨E, hE⟩ := h7 hl
          exact ⟨E, by rw [← hcur]; exact hE⟩
        · intro n hn
          rw [List.flatMap_append, List.flatMap_cons, List.flatMap_nil, List.append_nil, hda, List.mem_append] at hn
          rw [← hcur, h5.other]
          · unfold Env.cur
            rw [hsc]
            exact h3 n fun h => hn (.inl h)
          · intro p hp he
            exact hn (.inr (by rw [← he]; exact h6 p hp))
        · intro m n hmn
          rw [h10]
          exact lookup_map_other hmn _ _
      | value _ _ =>
        unfold createAssignment at hds
        rw [hb] at hds
        cases hds
        exact ⟨env, rfl, hE, base_other hS hI hm ha (by intro t ht; rw [hb] at ht; cases ht), fun t ht => by (rw [hb] at ht; cases ht), fun n hn => h3 n fun h => hn (by rw [List.flatMap_append]; exact List.mem_append_left _ h),
          fun _ _ _ => rfl⟩
      | objectClass d => exact absurd hb (hC.classes _ hm _ ha d)
      | objectSet =>
        unfold createAssignment at hds
        rw [hb] at hds
        cases hds
        exact ⟨env, rfl, hE, base_other hS hI hm ha (by intro t ht; rw [hb] at ht; cases ht), fun t ht => by (rw [hb] at ht; cases ht), fun n hn => h3 n fun h => hn (by rw [List.flatMap_append]; exact List.mem_append_left _ h),
          fun _ _ _ => rfl⟩
    obtain ⟨mid, h4, hE', hbase, h5, h6, h7⟩ := key
    have hone : runBody lib tree fuel mod env [a] = .ok mid := by
      simp only [runBody, hds, Res.ok_bind, h4, hbase]
    obtain ⟨k1, k2, k3, _⟩ := runBody_inv hS hm [a] env mid (fun b hb => by rw [List.mem_singleton.1 hb]; exact ha) hsc hI hone
    obtain ⟨env', h8, hE2, h9, h10⟩ := runBody_total hS hC hL hD hms hem as (done ++ [a]) mid (by rw [has]; simp) k1 k2 hE'
      (fun w hw b hb => (h1 w hw b hb).mono k3)
      (fun b hb => by
        rcases List.mem_append.1 hb with hb | hb
        · exact (h2 b hb).mono k3
        · rw [List.mem_singleton.1 hb]; exact h5) h6
    refine ⟨env', ?_, hE2, h9, fun m n hmn => by rw [h10 m n hmn, h7 m n hmn]⟩
    simp only [runBody, hds, Res.ok_bind, h4, hbase]
    exact h8

theorem runModules_total {lib : Lib} {tree : Tree} (hS : Supported tree) (hC : RCompilable tree) (hL : Legal tree) (hD : DefaultsTaken lib tree) {fuel : Nat}
    (hem : ∀ mod ∈ tree.modules, ∀ a ∈ mod.assignments, ∃ ds, createAssignment tree fuel mod a = .ok ds) :
    ∀ (ms before : List Module) (env : Env), tree.modules = before ++ ms → env.scopes = [] → Inv lib tree env.spaces → EnumSpaces env.spaces →
    (∀ w ∈ before, ∀ b ∈ w.assignments, AvailA w b env.spaces) → (∀ m n, (∀ w ∈ before, w.name ≠ m) → env.spaces.lookup (m, n) = none) →
    ∃ env', runModules lib tree fuel env ms = .ok env'
  | [], before, env, _, _, _, _, _, _ => ⟨env, rfl⟩
  | mod :: ms, before, env, hms, hsc, hI, hE, h1, h2 => by
    have hm : mod ∈ tree.modules := by rw [hms]; simp
    have hne : ∀ w ∈ before, w.name ≠ mod.name := by
      intro w hw
      have := hS.modules
      rw [hms, List.pairwise_append] at this
      exact this.2.2 w hw mod List.mem_cons_self
    obtain ⟨mid, h3, hE', h4, h5⟩ := runBody_total hS hC hL hD hms (hem mod hm) mod.assignments [] env rfl hsc hI hE h1 (fun _ h => by cases h)
      (fun n _ => h2 _ _ hne)
    obtain ⟨k1, k2, k3, _⟩ := runBody_inv hS hm mod.assignments env mid (fun _ h => h) hsc hI h3
    obtain ⟨env', h6⟩ := runModules_total hS hC hL hD hem ms (before ++ [mod]) mid (by rw [hms]; simp) k1 k2 hE'
      (fun w hw b hb => by
        rcases List.mem_append.1 hw with hw | hw
        · exact (h1 w hw b hb).mono k3
        · rw [List.mem_singleton.1 hw] at hb ⊢; exact h4 b hb)
      (fun m n hmn => by
        rw [h5 m n fun he => hmn mod (by simp) he.symm]
        exact h2 m n fun w hw => hmn w (List.mem_append_left _ hw))
    exact ⟨env', by simp only [runModules, h3, Res.ok_bind]; exact h6⟩

/-- Supported, legal schemas with circular references whose names are distinct are compiled. -/
theorem generate_total {lib : Lib} {tree : Tree} (hS : Supported tree) (hL : Legal tree) (hC : RCompilable tree) (hD : DefaultsTaken lib tree) :
    ∃ f0, ∀ f ≥ f0, ∃ env, generate lib f tree = .ok env := by
  obtain ⟨f0, h0⟩ := emission_settles hS hC.toCompilableNames hL
  exact ⟨f0, fun f hf => runModules_total hS hC hL hD (h0 f hf) tree.modules [] ⟨[], []⟩ rfl rfl (fun m n T h => by cases h) (fun m n h => by cases h) (fun _ h => by cases h)
    (fun _ _ _ => rfl)⟩

end FastBer.Ast.Fwd
