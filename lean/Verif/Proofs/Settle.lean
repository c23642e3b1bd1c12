import Verif.Proofs.EmitType
import Verif.Props.Tags
import Verif.Spec.Compilable
/-!
# The compiler's computations on supported, legal schemas end without an error

`Settles g x`: with enough fuel the result is `x`.
-/
namespace FastBer.Ast
open Spec FastBer.Props

/-- From some count on the result is `x`. -/
def Settles {α : Type} (g : Nat → Res α) (x : α) : Prop := ∃ f0, ∀ f, f0 ≤ f → g f = .ok x

theorem Settles.const {α : Type} (x : α) : Settles (fun _ => .ok x) x := ⟨0, fun _ _ => rfl⟩

theorem Settles.bind {α β : Type} {g : Nat → Res α} {x : α} {h : Nat → α → Res β} {y : β} (hg : Settles g x) (hh : Settles (fun f => h f x) y) :
    Settles (fun f => g f >>= h f) y := by
  obtain ⟨f1, h1⟩ := hg
  obtain ⟨f2, h2⟩ := hh
  refine ⟨max f1 f2, fun f hf => ?_⟩
  show g f >>= h f = _
  rw [h1 f (by omega), Res.ok_bind]
  exact h2 f (by omega)

/-- Functions that use up one unit. -/
theorem Settles.succ {α : Type} {g h : Nat → Res α} {x : α} (hh : Settles h x) (he : ∀ f, g (f + 1) = h f) : Settles g x := by
  obtain ⟨f0, h0⟩ := hh
  refine ⟨f0 + 1, fun f hf => ?_⟩
  obtain ⟨f', rfl⟩ : ∃ f', f = f' + 1 := ⟨f - 1, by omega⟩
  rw [he]
  exact h0 f' (by omega)

theorem Settles.congr {α : Type} {g h : Nat → Res α} {x : α} (hh : Settles h x) (he : ∀ f, g f = h f) : Settles g x := by
  obtain ⟨f0, h0⟩ := hh
  exact ⟨f0, fun f hf => by rw [he]; exact h0 f hf⟩

theorem Settles.identifier {tree : Tree} {f : Nat} {mod : Module} {t : AType} {i : TagInfo} (h : identifier tree f mod t = .ok i) :
    Settles (fun f => identifier tree f mod t) i := ⟨f, fun _ hf => Res.le_ok (identifier_mono_le hf) h⟩

theorem Settles.outerIds {tree : Tree} {f : Nat} {mod : Module} {t : AType} {i : List TagId} (h : outerIds tree f mod t = .ok i) :
    Settles (fun f => outerIds tree f mod t) i := ⟨f, fun _ hf => Res.le_ok (outerIds_mono_le hf) h⟩

/-! ## Identifiers -/

theorem clear_of_begins {tree : Tree} (hS : Supported tree) (hC : CompilableNames tree) {mod : Module} {t : AType} (h : Begins tree mod t) :
    Occurs tree mod t → Clear tree mod t := by
  induction h with
  | leaf hk => intro _; obtain ⟨n, h1, _⟩ := known_tag hk; exact .leaf h1
  | sequence => intro _; exact .sequence ..
  | seqOf => intro _; exact .seqOf ..
  | set => intro _; exact .set ..
  | setOf => intro _; exact .setOf ..
  | @choice mod as s hne _ ih =>
    intro ho
    by_cases ha : mod.tagging = .automatic
    · refine .automaticChoice ⟨ha, fun a hm c n k t he => ?_⟩ hne
      have := hS.autoUntagged _ _ _ (.choice ho hm) ha
      rw [he] at this
      cases this
    · exact .choice ha hne fun a hm => ih ha a hm (.choice ho hm)
  | prefixed => intro ho; exact .prefixed _ _ _ _ (hC.universal _ _ _ _ _ ho)
  | reference ht _ ih => intro _; exact .reference ht (ih (occurs_target ht))

theorem clear_of_occurs {tree : Tree} (hS : Supported tree) (hC : CompilableNames tree) {mod : Module} {t : AType} (ho : Occurs tree mod t) :
    Clear tree mod t := clear_of_begins hS hC (begins_of_safe (hS.tags _ _ ho)) ho

theorem choiceDistinct_of_legal {tree : Tree} (hL : Legal tree) {mod : Module} {as : List Named} {s : Storage} (ho : Occurs tree mod (.choice as s))
    (hm : mod.tagging ≠ .automatic) : ChoiceDistinct tree mod as := by
  have h := hL.choices _ _ _ ho
  rw [Spec.choices, autoTags_other hm] at h
  intro i j a b hij ha hb ⟨tag, h1, h2⟩
  have ha' : (as.map Named.type)[i]? = some a.type := by rw [List.getElem?_map, ha]; rfl
  have hb' : (as.map Named.type)[j]? = some b.type := by rw [List.getElem?_map, hb]; rfl
  rcases Nat.lt_or_gt_of_ne hij with hlt | hlt
  · exact h i j _ _ tag tag hlt ha' hb' h1 h2 rfl
  · exact h j i _ _ tag tag hlt hb' ha' h2 h1 rfl

theorem outer_nodup {tree : Tree} (hS : Supported tree) (hC : CompilableNames tree) (hL : Legal tree) {mod : Module} {t : AType} (h : Begins tree mod t) :
    Occurs tree mod t → ∃ f ids, outerIds tree f mod t = .ok ids ∧ ids.Nodup := by
  induction h with
  | @leaf mod k hk =>
    intro ho
    obtain ⟨n, hn, _⟩ := known_tag hk
    exact ⟨1, [.ofUniversal n], by rw [outerIds, if_neg (by rintro rfl; cases hk), hn]; rfl, by simp⟩
  | sequence | seqOf | set | setOf | prefixed => intro _; exact ⟨1, _, by rw [outerIds], by simp⟩
  | @choice mod as s hne _ ih =>
    intro ho
    obtain ⟨f, ids, h1, _⟩ := clear_outer (clear_of_occurs hS hC ho)
    refine ⟨f, ids, h1, ?_⟩
    by_cases ha : mod.tagging = .automatic
    · cases f with
      | zero => rw [outerIds] at h1; cases h1
      | succ f =>
        rw [outerIds, if_pos ha] at h1
        cases h1
        rw [List.Nodup, List.pairwise_map]
        exact List.Pairwise.imp (fun h he => h (by simpa [TagId.ofTag] using he)) List.nodup_range
    · exact (choice_nodup ha (fun a hm => clear_of_occurs hS hC (.choice ho hm)) (fun a hm => ih ha a hm (.choice ho hm)) h1).2
        (choiceDistinct_of_legal hL ho ha)
  | reference ht _ ih =>
    intro _
    obtain ⟨f, ids, h1, h2⟩ := ih (occurs_target ht)
    exact ⟨f + 1, ids, by rw [outerIds, followRef_ok.2 ht, Res.ok_bind]; exact h1, h2⟩

theorem identifier_exists {tree : Tree} (hS : Supported tree) (hC : CompilableNames tree) (hL : Legal tree) {mod : Module} {t : AType} (h : TagSafe tree mod t) :
    Occurs tree mod t → ∃ f i, identifier tree f mod t = .ok i := by
  induction h with
  | leaf => intro _; exact ⟨1, _, by rw [identifier]⟩
  | sequence => intro _; exact ⟨1, _, by rw [identifier]⟩
  | seqOf => intro _; exact ⟨1, _, by rw [identifier]⟩
  | set => intro _; exact ⟨1, _, by rw [identifier]⟩
  | setOf => intro _; exact ⟨1, _, by rw [identifier]⟩
  | @choice mod as s hb =>
    intro ho
    obtain ⟨f, ids, h1, h2⟩ := identifier_choice (clear_of_occurs hS hC ho)
    obtain ⟨f', ids', h3, h4⟩ := outer_nodup hS hC hL hb ho
    rw [outerIds_unique h3 h1] at h4
    exact ⟨f, _, (h2 f (Nat.le_refl _)).1 h4⟩
  | @prefixed mod c n k t x ts _ _ _ _ ih =>
    intro ho
    obtain ⟨f, i, hi⟩ := ih (.prefixed ho)
    refine ⟨f + 1, ?_⟩
    rw [identifier, hi, Res.ok_bind]
    split <;> exact ⟨_, rfl⟩
  | @prefixedChoice mod c n t _ _ _ ih =>
    intro ho
    obtain ⟨f, i, hi⟩ := ih (.prefixed ho)
    refine ⟨f + 1, ?_⟩
    rw [identifier, hi, Res.ok_bind]
    split <;> exact ⟨_, rfl⟩
  | reference ht _ ih =>
    intro _
    obtain ⟨f, i, hi⟩ := ih (occurs_target ht)
    exact ⟨f + 1, i, by rw [identifier, followRef_ok.2 ht, Res.ok_bind]; exact hi⟩

theorem identifier_settles {tree : Tree} (hS : Supported tree) (hC : CompilableNames tree) (hL : Legal tree) {mod : Module} {t : AType} (ho : Occurs tree mod t) :
    ∃ i, Settles (fun f => identifier tree f mod t) i := by
  obtain ⟨f, i, hi⟩ := identifier_exists hS hC hL (hS.tags _ _ ho) ho
  exact ⟨i, .identifier hi⟩

theorem outerIds_settles {tree : Tree} (hS : Supported tree) (hC : CompilableNames tree) {mod : Module} {t : AType} (ho : Occurs tree mod t) :
    ∃ i, Settles (fun f => outerIds tree f mod t) i := by
  obtain ⟨f, i, hi, _⟩ := clear_outer (clear_of_occurs hS hC ho)
  exact ⟨i, .outerIds hi⟩

theorem overrideOr_settles {tree : Tree} (hS : Supported tree) (hC : CompilableNames tree) (hL : Legal tree) {mod : Module} {t : AType} (ho : Occurs tree mod t)
    (ov : Option CId) : ∃ id, Settles (fun f => overrideOr tree f mod t ov) id := by
  cases ov with
  | some id => exact ⟨id, .const id⟩
  | none =>
    obtain ⟨i, hi⟩ := identifier_settles hS hC hL ho
    exact ⟨_, hi.bind (.const _)⟩

/-! ## The checks of SEQUENCE and SET -/

/-- The identifiers of the components, all at once. -/
theorem identifiers_common {tree : Tree} (hS : Supported tree) (hC : CompilableNames tree) (hL : Legal tree) {mod : Module} {cs : List Comp}
    (ho : ∀ c ∈ cs, Occurs tree mod c.type) : ∃ f, ∃ g : AType → TagInfo, ∀ f' ≥ f, ∀ c ∈ cs, identifier tree f' mod c.type = .ok (g c.type) :=
  common_fuel cs fun c hc => by
    obtain ⟨f, i, hi⟩ := identifier_exists hS hC hL (hS.tags _ _ (ho c hc)) (ho c hc)
    exact ⟨i, by simp, f, hi⟩

theorem slots_other {mod : Module} (hm : mod.tagging ≠ .automatic) (cs : List Comp) :
    slots mod cs = cs.map fun c => ⟨c.optional || c.default.isSome, c.type⟩ := by
  rw [slots, autoTags_other hm]
  induction cs with
  | nil => rfl
  | cons c cs ih => rw [List.map_cons, List.zipWith_cons_cons, ih, List.map_cons]

theorem slots_other_get {mod : Module} (hm : mod.tagging ≠ .automatic) {cs : List Comp} {i : Nat} {c : Comp} (h : cs[i]? = some c) :
    (slots mod cs)[i]? = some ⟨c.optional || c.default.isSome, c.type⟩ := by
  rw [slots_other hm, List.getElem?_map, h]; rfl

theorem setDistinct_of_legal {tree : Tree} (hL : Legal tree) {mod : Module} {cs : List Comp} {e : Bool} (ho : Occurs tree mod (.set cs e))
    (hm : mod.tagging ≠ .automatic) : SetDistinct tree mod cs := by
  have h := hL.sets _ _ _ ho
  intro i j a b hij ha hb hc
  rcases Nat.lt_or_gt_of_ne hij with hlt | hlt
  · exact h i j _ _ hlt (slots_other_get hm ha) (slots_other_get hm hb) hc
  · obtain ⟨tag, h1, h2⟩ := hc
    exact h j i _ _ hlt (slots_other_get hm hb) (slots_other_get hm ha) ⟨tag, h2, h1⟩

theorem checkSet_settles {tree : Tree} (hS : Supported tree) (hC : CompilableNames tree) (hL : Legal tree) {mod : Module} {cs : List Comp} {e : Bool}
    (ho : Occurs tree mod (.set cs e)) : Settles (fun f => checkSet tree f mod cs) () := by
  by_cases hm : mod.tagging = .automatic
  · exact ⟨0, fun f _ => by show checkSet tree f mod cs = _; rw [checkSet, if_pos hm]⟩
  · obtain ⟨f, g, hg⟩ := identifiers_common hS hC hL (cs := cs) fun c hc => .set ho hc
    have hd := setDistinct_of_legal hL ho hm
    refine ⟨f, fun f' hf' => ?_⟩
    show checkSet tree f' mod cs = _
    rw [checkSet, if_neg hm, checkSetFrom_ok (g := g) cs (hg f' hf'), nodup_flatMap_idx]
    refine ⟨⟨fun a ha => (identifier_outer (clear_of_occurs hS hC (.set ho ha)) (hg f' hf' a ha)).2.2.2.1, fun i j a b hij hi hj x hx hy => ?_⟩, by simp⟩
    have ha := List.mem_of_getElem? hi
    have hb := List.mem_of_getElem? hj
    exact hd i j a b (by omega) hi hj ((clash_iff (clear_of_occurs hS hC (.set ho ha)) (clear_of_occurs hS hC (.set ho hb)) (hg f' hf' a ha) (hg f' hf' b hb)).2
      ⟨x, hx, hy⟩)

theorem checkSeqFrom_accepts {ids : AType → Res TagInfo} {g : AType → TagInfo} : ∀ (cs : List Comp) (prev : List TagId),
    (∀ c ∈ cs, ids c.type = .ok (g c.type)) → (∀ c ∈ cs, (g c.type).outerTags ≠ []) →
    (∀ c cs', cs = c :: cs' → (c.optional || c.default.isSome) = true → ∀ x ∈ prev, x ∉ (g c.type).outerTags) →
    (∀ i a b, cs[i]? = some a → cs[i + 1]? = some b → (a.optional || a.default.isSome) = true → (b.optional || b.default.isSome) = true →
      ∀ x ∈ (g a.type).outerTags, x ∉ (g b.type).outerTags) → checkSeqFrom ids prev cs = .ok ()
  | [], prev, _, _, _, _ => rfl
  | c :: cs, prev, h1, h2, h3, h4 => by
    have hrest := fun prev h3 => checkSeqFrom_accepts cs prev (fun c hc => h1 c (List.mem_cons_of_mem _ hc)) (fun c hc => h2 c (List.mem_cons_of_mem _ hc)) h3
      (fun i a b ha hb => h4 (i + 1) a b (by simpa using ha) (by simpa using hb))
    rw [checkSeqFrom]
    split
    · rename_i hab
      rw [h1 c List.mem_cons_self, Res.ok_bind]
      have hne := h2 c List.mem_cons_self
      have hp := h3 c cs rfl hab
      generalize hg : (g c.type).outerTags = l at hne hp ⊢
      cases l with
      | nil => exact absurd rfl hne
      | cons first l =>
        simp only
        rw [if_neg (by
          intro hc
          exact hp first (by simpa using hc) List.mem_cons_self)]
        refine hrest _ fun d ds hd hdab x hx => ?_
        subst hd
        exact h4 0 c d rfl rfl hab hdab x (by rw [hg]; exact hx)
    · exact hrest [] fun _ _ _ _ x hx => by cases hx

theorem checkSequence_settles {tree : Tree} (hS : Supported tree) (hC : CompilableNames tree) (hL : Legal tree) {mod : Module} {cs : List Comp} {e : Bool}
    (ho : Occurs tree mod (.sequence cs e)) : Settles (fun f => checkSequence tree f mod cs) () := by
  by_cases hm : mod.tagging = .automatic
  · exact ⟨0, fun f _ => by show checkSequence tree f mod cs = _; rw [checkSequence, if_pos hm]⟩
  · obtain ⟨f, g, hg⟩ := identifiers_common hS hC hL (cs := cs) fun c hc => .sequence ho hc
    have hcl : ∀ c ∈ cs, Clear tree mod c.type := fun c hc => clear_of_occurs hS hC (.sequence ho hc)
    refine ⟨f, fun f' hf' => ?_⟩
    show checkSequence tree f' mod cs = _
    rw [checkSequence, if_neg hm]
    refine checkSeqFrom_accepts (g := g) cs [] (hg f' hf') (fun c hc => (identifier_outer (hcl c hc) (hg f' hf' c hc)).2.1)
      (fun _ _ _ _ x hx => by cases hx) fun i a b ha hb hab _ x hx hy => ?_
    have ha' := List.mem_of_getElem? ha
    have hb' := List.mem_of_getElem? hb
    refine hL.sequences _ _ _ ho i (i + 1) _ _ (by omega) (slots_other_get hm ha) (slots_other_get hm hb) (fun k c h1 h2 hk => ?_)
      ((clash_iff (hcl a ha') (hcl b hb') (hg f' hf' a ha') (hg f' hf' b hb')).2 ⟨x, hx, hy⟩)
    obtain rfl : k = i := by omega
    rw [slots_other_get hm ha] at hk
    cases hk
    exact hab

/-! ## References -/

theorem resolveDefined_settles {tree : Tree} {cur mod ref : Name} (hr : RefOk tree cur mod ref) : ∀ (module : Name) (m : Option Name),
    m.getD module = mod → ∃ r, Settles (fun f => resolveDefined tree cur f module m ref) r := by
  have key : ∀ {module : Name} {m : Option Name} {r : Resolved} (f : Nat), resolveDefined tree cur f module m ref = .ok r →
      ∃ r, Settles (fun f => resolveDefined tree cur f module m ref) r :=
    fun f h => ⟨_, f, fun _ hf => resolveDefined_mono_le h (by simp) hf⟩
  induction hr with
  | @here mod ref t hl hn =>
    intro module m hm
    subst hm
    rcases resolveDefined_step tree cur 0 module m ref with ⟨e, _, h⟩ | ⟨m', r', ps, hl', _⟩ | ⟨c, n, k, m', r', ps, hl', _⟩ | ⟨t', wm, hl', _, he, _⟩
    · exact absurd hl (h _)
    · rw [hl] at hl'; cases hl'; exact absurd (.direct _ _ _) (hn _ _)
    · rw [hl] at hl'; cases hl'; exact absurd (.tagged _ _ _ _ _ _) (hn _ _)
    · exact key _ he
  | @alias mod ref m1 r1 ps hl _ ih =>
    intro module m hm
    subst hm
    obtain ⟨r, f, hf⟩ := ih (fun f h => ⟨_, f, fun _ hf => resolveDefined_mono_le h (by simp) hf⟩) (m.getD module) m1 rfl
    rcases resolveDefined_step tree cur f module m ref with ⟨e, _, h⟩ | ⟨m', r', ps, hl', he⟩ | ⟨c, n, k, m', r', ps, hl', _⟩ | ⟨t', wm, hl', hn', _, _⟩
    · exact absurd hl (h _)
    · rw [hl] at hl'; cases hl'
      exact key _ (he.trans (hf f (Nat.le_refl _)))
    · rw [hl] at hl'; cases hl'
    · rw [hl] at hl'; cases hl'; exact absurd (.direct _ _ _) (hn' _ _)
  | @tagged mod ref c k tm m1 r1 ps hl hg _ ih =>
    intro module m hm
    subst hm
    obtain ⟨r, f, hf⟩ := ih (fun f h => ⟨_, f, fun _ hf => resolveDefined_mono_le h (by simp) hf⟩) cur m1 hg
    rcases resolveDefined_step tree cur f module m ref with ⟨e, _, h⟩ | ⟨m', r', ps, hl', he⟩ | ⟨c, n, k, m', r', ps, hl', he⟩ | ⟨t', wm, hl', hn', _, _⟩
    · exact absurd hl (h _)
    · rw [hl] at hl'; cases hl'
    · rw [hl] at hl'; cases hl'
      have hf := hf f (Nat.le_refl _)
      simp only at hf
      exact key _ (by rw [he, hf]; rfl)
    · rw [hl] at hl'; cases hl'; exact absurd (.tagged _ _ _ _ _ _) (hn' _ _)

theorem findModule_self {tree : Tree} (hS : Supported tree) {mod : Module} (hm : mod ∈ tree.modules) : findModule tree mod.name = .ok mod := by
  unfold findModule
  cases h : tree.modules.find? (·.name == mod.name) with
  | none => exact absurd (List.find?_eq_none.1 h mod hm) (by simp)
  | some m =>
    have h1 : m.name = mod.name := by simpa using List.find?_some h
    have := pairwise_unique hS.modules (List.mem_of_find?_eq_some h) hm h1
    subst this
    rfl

theorem resolveType_settles {tree : Tree} (hS : Supported tree) {mod : Module} (hm : mod ∈ tree.modules) (n : Name) : ∀ (t : AType), Occurs tree mod t →
    ∃ r, Settles (fun f => resolveType tree mod.name f n t) r
  | .defined m ref ps, ho => by
    simp only [resolveType]
    exact resolveDefined_settles (hS.references _ _ _ _ ho) mod.name m rfl
  | .prefixed c k tm t, ho => by
    simp only [resolveType]
    exact resolveType_settles hS hm n t (.prefixed ho)
  | .leaf _, _ => by simp only [resolveType, findModule_self hS hm, Res.ok_bind]; exact ⟨_, .const _⟩
  | .choice _ _, _ => by simp only [resolveType, findModule_self hS hm, Res.ok_bind]; exact ⟨_, .const _⟩
  | .sequence _ _, _ => by simp only [resolveType, findModule_self hS hm, Res.ok_bind]; exact ⟨_, .const _⟩
  | .set _ _, _ => by simp only [resolveType, findModule_self hS hm, Res.ok_bind]; exact ⟨_, .const _⟩
  | .seqOf _ _ _, _ => by simp only [resolveType, findModule_self hS hm, Res.ok_bind]; exact ⟨_, .const _⟩
  | .setOf _ _ _, _ => by simp only [resolveType, findModule_self hS hm, Res.ok_bind]; exact ⟨_, .const _⟩
  | .objField _ _ _, _ => by simp only [resolveType, findModule_self hS hm, Res.ok_bind]; exact ⟨_, .const _⟩

theorem occurs_module {tree : Tree} {mod : Module} {t : AType} (h : Occurs tree mod t) : mod ∈ tree.modules := by
  induction h with
  | assigned hm => exact hm
  | sequence _ _ ih => exact ih
  | set _ _ ih => exact ih
  | choice _ _ ih => exact ih
  | seqOf _ ih => exact ih
  | setOf _ ih => exact ih
  | prefixed _ ih => exact ih

theorem componentFunction_settles {tree : Tree} (hS : Supported tree) (hC : CompilableNames tree) (hL : Legal tree) {mod : Module} (n : Name) {t : AType}
    (ho : Occurs tree mod t) : ∃ w, Settles (fun f => componentFunction tree f mod n t) w := by
  obtain ⟨r, hr⟩ := resolveType_settles hS (occurs_module ho) n t ho
  obtain ⟨i, hi⟩ := identifier_settles hS hC hL ho
  by_cases hg : r.type.isGenerated = true
  · by_cases hd : i.isDefault = true
    · exact ⟨_, hr.bind (by simp only [hg, if_true]; exact hi.bind (by simp only [hd, if_true]; exact .const _))⟩
    · exact ⟨_, hr.bind (by simp only [hg, if_true]; exact hi.bind (by simp only [hd]; exact .const _))⟩
  · exact ⟨_, hr.bind (by simp only [hg]; exact .const _)⟩

end FastBer.Ast
